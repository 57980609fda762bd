import Verif.Lemmas.Qual1

/-! # Qualified names: the lexer -/
namespace PP.Qu
open PP PP.Props

section
variable {env : Env} {base ns ms ls : List GoStr} {α β : Type}

macro_rules | `(tactic| okl) => `(tactic| with_reducible exact Ok.advWhile _ _)

/-- In loops. -/
macro "ok2" h:term : tactic => `(tactic| repeat' first | exact $h | ok1)

theorem Ok.skipWhiteLoop {b : Bool} {f : Nat} {c : Cmt} {p : Nat} : Ok env base ns (PP.skipWhiteLoop b f c p) ns (fun _ => True) := by
  induction f generalizing c p with
  | zero => rw [PP.skipWhiteLoop]; exact Ok.timeout
  | succ f ih => unfold PP.skipWhiteLoop; ok1; all_goals ok2 ih
macro_rules | `(tactic| okl) => `(tactic| with_reducible exact Ok.skipWhiteLoop)

theorem Ok.skipWhite {b : Bool} : Ok env base ns (PP.skipWhite b) ns (fun _ => True) := by
  unfold PP.skipWhite; ok
macro_rules | `(tactic| okl) => `(tactic| with_reducible exact Ok.skipWhite)

theorem Ok.skipWhiteInLiteralLoop {f : Nat} : Ok env base ns (PP.skipWhiteInLiteralLoop  f) ns (fun _ => True) := by
  induction f with
  | zero => unfold PP.skipWhiteInLiteralLoop; ok
  | succ f ih => unfold PP.skipWhiteInLiteralLoop; ok
macro_rules | `(tactic| okl) => `(tactic| with_reducible exact Ok.skipWhiteInLiteralLoop)

theorem Ok.skipWhiteInLiteral : Ok env base ns (PP.skipWhiteInLiteral) ns (fun _ => True) := by
  unfold PP.skipWhiteInLiteral; ok
macro_rules | `(tactic| okl) => `(tactic| with_reducible exact Ok.skipWhiteInLiteral)

theorem Ok.dashLoop {f : Nat} {i : Nat} : Ok env base ns (PP.dashLoop  f i) ns (fun _ => True) := by
  induction f generalizing i with
  | zero => rw [PP.dashLoop]; exact Ok.timeout
  | succ f ih => unfold PP.dashLoop; ok1; all_goals ok2 ih
macro_rules | `(tactic| okl) => `(tactic| with_reducible exact Ok.dashLoop)

theorem Ok.nameLoop {n : Nat} {t : Tok} {f : Nat} {a b : Bool} : Ok env base ns (PP.nameLoop n t f a b) ns (fun _ => True) := by
  induction f generalizing a b with
  | zero => rw [PP.nameLoop]; exact Ok.timeout
  | succ f ih => unfold PP.nameLoop; ok1; all_goals ok2 ih
macro_rules | `(tactic| okl) => `(tactic| with_reducible exact Ok.nameLoop)

theorem classify_val (t : Tok) (d : Bool) (w : GoStr) (e : Expr) (h : (classify env t d w).2 = .expr e) : Any e := by
  unfold classify at h
  repeat' split at h
  all_goals cases h
macro_rules | `(tactic| okl) => `(tactic| with_reducible exact Ok.setTokenValue (classify_val _ _ _))

theorem Ok.classified {t : Tok} {d : Bool} {w : GoStr} : Ok env base ns (PP.setTokenValue (classify env t d w).1 (classify env t d w).2) ns (fun _ => True) :=
  Ok.setTokenValue (classify_val t d w)
macro_rules | `(tactic| okl) => `(tactic| with_reducible exact Ok.classified)

theorem Ok.consumeQualifiedName {n : Nat} {t : Tok} : Ok env base ns (PP.consumeQualifiedName n t) ns (fun _ => True) := by
  unfold PP.consumeQualifiedName; ok
macro_rules | `(tactic| okl) => `(tactic| with_reducible exact Ok.consumeQualifiedName)

theorem Ok.skipDecimalDigits : Ok env base ns (PP.skipDecimalDigits) ns (fun _ => True) := by
  unfold PP.skipDecimalDigits; ok
macro_rules | `(tactic| okl) => `(tactic| with_reducible exact Ok.skipDecimalDigits)

theorem Ok.needDigits : Ok env base ns (PP.needDigits) ns (fun _ => True) := by
  unfold PP.needDigits; ok
macro_rules | `(tactic| okl) => `(tactic| with_reducible exact Ok.needDigits)

theorem Ok.consumeFloat {a b : Nat} : Ok env base ns (PP.consumeFloat a b) ns (fun _ => True) := by
  unfold PP.consumeFloat; ok
macro_rules | `(tactic| okl) => `(tactic| with_reducible exact Ok.consumeFloat)

theorem Ok.appendHexadec : Ok env base ns (PP.appendHexadec) ns (fun _ => True) := by
  unfold PP.appendHexadec; ok
macro_rules | `(tactic| okl) => `(tactic| with_reducible exact Ok.appendHexadec)

theorem Ok.hexDigits {n k : Nat} : Ok env base ns (PP.hexDigits n k) ns (fun _ => True) := by
  induction k with
  | zero => unfold PP.hexDigits; ok
  | succ f ih => unfold PP.hexDigits; ok
macro_rules | `(tactic| okl) => `(tactic| with_reducible exact Ok.hexDigits)

theorem Ok.appendUnicode : Ok env base ns (PP.appendUnicode) ns (fun _ => True) := by
  unfold PP.appendUnicode; ok
macro_rules | `(tactic| okl) => `(tactic| with_reducible exact Ok.appendUnicode)

theorem Ok.escapeHandler {h : Handler} {c : Nat} : Ok env base ns (PP.escapeHandler h c) ns (fun _ => True) := by
  unfold PP.escapeHandler; ok
macro_rules | `(tactic| okl) => `(tactic| with_reducible exact Ok.escapeHandler)

theorem Ok.eppComment {f : Nat} {i : Nat} : Ok env base ns (PP.eppComment  f i) ns (fun _ => True) := by
  induction f generalizing i with
  | zero => rw [PP.eppComment]; exact Ok.timeout
  | succ f ih => unfold PP.eppComment; ok1; all_goals ok2 ih
macro_rules | `(tactic| okl) => `(tactic| with_reducible exact Ok.eppComment)

theorem Ok.eppText {f : Nat} {b : GoStr} {i : Nat} : Ok env base ns (PP.eppText  f b i) ns (fun _ => True) := by
  induction f generalizing b i with
  | zero => rw [PP.eppText]; exact Ok.timeout
  | succ f ih => unfold PP.eppText; ok1; all_goals ok2 ih
macro_rules | `(tactic| okl) => `(tactic| with_reducible exact Ok.eppText)

theorem Ok.consumeBacktickedString : Ok env base ns (PP.consumeBacktickedString) ns (fun _ => True) := by
  unfold PP.consumeBacktickedString; ok
macro_rules | `(tactic| okl) => `(tactic| with_reducible exact Ok.consumeBacktickedString)

theorem Ok.extractFlags {n : Nat} : Ok env base ns (PP.extractFlags n) ns (fun _ => True) := by
  unfold PP.extractFlags; ok
macro_rules | `(tactic| okl) => `(tactic| with_reducible exact Ok.extractFlags)

theorem Ok.withTag {h : HDecl} {n : Nat} : Ok env base ns (h.withTag n) ns (fun _ => True) := by
  unfold PP.HDecl.withTag; ok
macro_rules | `(tactic| okl) => `(tactic| with_reducible exact Ok.withTag)

theorem Ok.findTagEnd {n : Nat} {f : Nat} {h : HDecl} : Ok env base ns (PP.findTagEnd n f h) ns (fun _ => True) := by
  induction f generalizing h with
  | zero => rw [PP.findTagEnd]; exact Ok.timeout
  | succ f ih => unfold PP.findTagEnd; ok1; all_goals ok2 ih
macro_rules | `(tactic| okl) => `(tactic| with_reducible exact Ok.findTagEnd)

theorem Ok.findStartOfText {n : Nat} {f : Nat} {a b : Nat} : Ok env base ns (PP.findStartOfText n f a b) ns (fun _ => True) := by
  induction f generalizing a b with
  | zero => rw [PP.findStartOfText]; exact Ok.timeout
  | succ f ih => unfold PP.findStartOfText; ok1; all_goals ok2 ih
macro_rules | `(tactic| okl) => `(tactic| with_reducible exact Ok.findStartOfText)

theorem Ok.marginOf {a b c : Nat} {d : Bool} {e : Nat} : Ok env base ns (PP.marginOf a b c d e) ns (fun _ => True) := by
  unfold PP.marginOf; ok
macro_rules | `(tactic| okl) => `(tactic| with_reducible exact Ok.marginOf)

theorem Ok.findEndOfText {n : Nat} {t : GoStr} {f : Nat} {a : Nat} {b : Bool} {c : Nat} : Ok env base ns (PP.findEndOfText n t f a b c) ns (fun _ => True) := by
  induction f generalizing a b c with
  | zero => rw [PP.findEndOfText]; exact Ok.timeout
  | succ f ih => unfold PP.findEndOfText; ok1; all_goals ok2 ih
macro_rules | `(tactic| okl) => `(tactic| with_reducible exact Ok.findEndOfText)

theorem Ok.stripIndentLoop {n k : Nat} : Ok env base ns (PP.stripIndentLoop n k) ns (fun _ => True) := by
  induction k with
  | zero => unfold PP.stripIndentLoop; ok
  | succ f ih => unfold PP.stripIndentLoop; ok
macro_rules | `(tactic| okl) => `(tactic| with_reducible exact Ok.stripIndentLoop)

theorem Ok.stripIndent {n : Nat} : Ok env base ns (PP.stripIndent n) ns (fun _ => True) := by
  unfold PP.stripIndent; ok
macro_rules | `(tactic| okl) => `(tactic| with_reducible exact Ok.stripIndent)

theorem Ok.heredocDone {a b : Nat} : Ok env base ns (PP.heredocDone a b) ns (fun _ => True) := by
  unfold PP.heredocDone; ok
macro_rules | `(tactic| okl) => `(tactic| with_reducible exact Ok.heredocDone)

theorem Ok.adv1 {a : Nat} {b : Tok} : Ok env base ns (PP.adv1 a b) ns (fun _ => True) := by
  unfold PP.adv1; ok
macro_rules | `(tactic| okl) => `(tactic| with_reducible exact Ok.adv1)

theorem Ok.lexAssign : Ok env base ns (PP.lexAssign) ns (fun _ => True) := by
  unfold PP.lexAssign; ok
macro_rules | `(tactic| okl) => `(tactic| with_reducible exact Ok.lexAssign)

theorem Ok.lexLc : Ok env base ns (PP.lexLc) ns (fun _ => True) := by
  unfold PP.lexLc; ok
macro_rules | `(tactic| okl) => `(tactic| with_reducible exact Ok.lexLc)

theorem Ok.lexPlus : Ok env base ns (PP.lexPlus) ns (fun _ => True) := by
  unfold PP.lexPlus; ok
macro_rules | `(tactic| okl) => `(tactic| with_reducible exact Ok.lexPlus)

theorem Ok.lexNot : Ok env base ns (PP.lexNot) ns (fun _ => True) := by
  unfold PP.lexNot; ok
macro_rules | `(tactic| okl) => `(tactic| with_reducible exact Ok.lexNot)

theorem Ok.lexGreater : Ok env base ns (PP.lexGreater) ns (fun _ => True) := by
  unfold PP.lexGreater; ok
macro_rules | `(tactic| okl) => `(tactic| with_reducible exact Ok.lexGreater)

theorem Ok.lexPipe : Ok env base ns (PP.lexPipe) ns (fun _ => True) := by
  unfold PP.lexPipe; ok
macro_rules | `(tactic| okl) => `(tactic| with_reducible exact Ok.lexPipe)

theorem Ok.lexNumber {n : Nat} : Ok env base ns (PP.lexNumber n) ns (fun _ => True) := by
  unfold PP.lexNumber; ok
macro_rules | `(tactic| okl) => `(tactic| with_reducible exact Ok.lexNumber)

theorem Ok.lexLp {n : Nat} : Ok env base ns (PP.lexLp n) ns (fun _ => True) := by
  unfold PP.lexLp; ok
macro_rules | `(tactic| okl) => `(tactic| with_reducible exact Ok.lexLp)

theorem Ok.lexColon {n : Nat} : Ok env base ns (PP.lexColon n) ns (fun _ => True) := by
  unfold PP.lexColon; ok
macro_rules | `(tactic| okl) => `(tactic| with_reducible exact Ok.lexColon)

theorem Ok.lexTilde {n : Nat} : Ok env base ns (PP.lexTilde n) ns (fun _ => True) := by
  unfold PP.lexTilde; ok
macro_rules | `(tactic| okl) => `(tactic| with_reducible exact Ok.lexTilde)

theorem Ok.lexDollar {n : Nat} : Ok env base ns (PP.lexDollar n) ns (fun _ => True) := by
  unfold PP.lexDollar; ok
macro_rules | `(tactic| okl) => `(tactic| with_reducible exact Ok.lexDollar)

theorem Ok.lexZero {n : Nat} : Ok env base ns (PP.lexZero n) ns (fun _ => True) := by
  unfold PP.lexZero; ok
macro_rules | `(tactic| okl) => `(tactic| with_reducible exact Ok.lexZero)


end
end PP.Qu
