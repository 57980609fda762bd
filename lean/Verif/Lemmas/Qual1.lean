import Verif.Spec.Names
import Verif.Parser

/-! # Qualified names: a logic for results, whatever the state -/
namespace PP.Qu
open PP PP.Props

/-- Right in every place: what tokens carry. -/
def Any (e : Expr) : Prop := ∀ ns, Named ns e

structure I (base : List GoStr) (s : St) : Prop where
  val : ∀ e, s.val = .expr e → Any e
  defs : ∀ d ∈ s.defs, ∃ ns, base <+: ns ∧ Named ns d
  base : base <+: s.names

section
variable (env : Env) (base : List GoStr)

/-- `x` turns the enclosing names `ns` into `ms` and its results satisfy `R`. -/
def Ok {α : Type} (ns : List GoStr) (x : P α) (ms : List GoStr) (R : α → Prop) : Prop :=
  ∀ s a t, I base s → s.names = ns → x env s = .ok a t → I base t ∧ t.names = ms ∧ R a
end

variable {env : Env} {base ns ms ls : List GoStr} {α β : Type} {R : α → Prop} {R' : β → Prop}

theorem Ok.bind {x : P α} {f : α → P β} (h : Ok env base ns x ms R) (k : ∀ a, R a → Ok env base ms (f a) ls R') :
    Ok env base ns (x >>= f) ls R' := by
  intro s b t hi hn hx
  change (match x env s with | .ok a s' => f a env s' | .fail e s' => .fail e s') = _ at hx
  cases hxx : x env s with
  | ok a u =>
    rw [hxx] at hx
    obtain ⟨h1, h2, h3⟩ := h s a u hi hn hxx
    exact k a h3 u b t h1 h2 hx
  | fail e u => rw [hxx] at hx; cases hx

theorem Ok.pure {a : α} (h : R a) : Ok env base ns (pure a) ns R := by
  intro s b t hi hn hx
  cases hx
  exact ⟨hi, hn, h⟩

theorem Ok.bindPure {a : α} {f : α → P β} (h : Ok env base ns (f a) ms R') : Ok env base ns (Pure.pure a >>= f) ms R' := h

theorem Ok.weak {R₂ : α → Prop} {x : P α} (h : Ok env base ns x ms R) (k : ∀ a, R a → R₂ a) : Ok env base ns x ms R₂ :=
  fun s a t hi hn hx => by obtain ⟨h1, h2, h3⟩ := h s a t hi hn hx; exact ⟨h1, h2, k a h3⟩

theorem Ok.any {x : P α} (h : Ok env base ns x ms R) : Ok env base ns x ms (fun _ => True) := h.weak fun _ _ => trivial

theorem Ok.ite {c : Prop} [Decidable c] {x y : P α} (hx : c → Ok env base ns x ms R) (hy : ¬ c → Ok env base ns y ms R) :
    Ok env base ns (if c then x else y) ms R := by
  split
  · exact hx ‹_›
  · exact hy ‹_›

theorem Ok.throwE {e : Err} : Ok env base ns (throwE e : P α) ms R := fun _ _ _ _ _ hx => nomatch hx
theorem Ok.issue {c : Code} : Ok env base ns (issue c : P α) ms R := fun _ _ _ _ _ hx => nomatch hx
theorem Ok.crash {c : Crash} : Ok env base ns (crash c : P α) ms R := fun _ _ _ _ _ hx => nomatch hx
theorem Ok.timeout : Ok env base ns (timeout : P α) ms R := fun _ _ _ _ _ hx => nomatch hx

theorem Ok.getS : Ok env base ns getS ns (fun s => I base s ∧ s.names = ns) := by
  intro s a t hi hn hx; cases hx; exact ⟨hi, hn, hi, hn⟩
theorem Ok.getEnv : Ok env base ns getEnv ns (fun _ => True) := by
  intro s a t hi hn hx; cases hx; exact ⟨hi, hn, trivial⟩
theorem Ok.getPos : Ok env base ns getPos ns (fun _ => True) := by
  intro s a t hi hn hx; cases hx; exact ⟨hi, hn, trivial⟩
theorem Ok.curTok : Ok env base ns curTok ns (fun _ => True) := by
  intro s a t hi hn hx; cases hx; exact ⟨hi, hn, trivial⟩
theorem Ok.tokStart : Ok env base ns tokStart ns (fun _ => True) := by
  intro s a t hi hn hx; cases hx; exact ⟨hi, hn, trivial⟩
theorem Ok.here {n : Nat} : Ok env base ns (here n) ns (fun _ => True) := by
  intro s a t hi hn hx; cases hx; exact ⟨hi, hn, trivial⟩
theorem Ok.tokenString : Ok env base ns tokenString ns (fun _ => True) := by
  intro s a t hi hn hx
  unfold PP.tokenString at hx
  split at hx <;> first | (cases hx; exact ⟨hi, hn, trivial⟩) | cases hx

/-- Assignments that concern neither names nor definitions nor values of tokens. -/
theorem Ok.modS {f : St → St} (h : ∀ s, (f s).names = s.names ∧ (f s).defs = s.defs ∧ (f s).val = s.val) :
    Ok env base ns (modS f) ns (fun _ => True) := by
  intro s a t hi hn hx
  cases hx
  obtain ⟨h1, h2, h3⟩ := h s
  exact ⟨⟨by rw [h3]; exact hi.val, by rw [h2]; exact hi.defs, by rw [h1]; exact hi.base⟩, by rw [h1, hn], trivial⟩

theorem Ok.setPos {n : Nat} : Ok env base ns (setPos n) ns (fun _ => True) := .modS fun _ => ⟨rfl, rfl, rfl⟩
theorem Ok.advance {n : Nat} : Ok env base ns (advance n) ns (fun _ => True) := .modS fun _ => ⟨rfl, rfl, rfl⟩
theorem Ok.newLine : Ok env base ns newLine ns (fun _ => True) := by
  intro s a t hi hn hx; cases hx; exact ⟨⟨hi.val, hi.defs, hi.base⟩, hn, trivial⟩
theorem Ok.setTokenValue {t : Tok} {v : TokVal} (h : ∀ e, v = .expr e → Any e) :
    Ok env base ns (setTokenValue t v) ns (fun _ => True) := by
  intro s a t hi hn hx; cases hx; exact ⟨⟨h, hi.defs, hi.base⟩, hn, trivial⟩
theorem Ok.setToken {t : Tok} : Ok env base ns (setToken t) ns (fun _ => True) :=
  fun s a t hi hn hx => by cases hx; exact ⟨⟨(fun e h => nomatch h), hi.defs, hi.base⟩, hn, trivial⟩
theorem Ok.peekAt {n : Nat} : Ok env base ns (peekAt n) ns (fun _ => True) := by
  intro s a t hi hn hx
  unfold PP.peekAt at hx
  dsimp only at hx
  repeat' split at hx
  all_goals first | (cases hx; exact ⟨hi, hn, trivial⟩) | cases hx
theorem Ok.peek : Ok env base ns peek ns (fun _ => True) := fun s a t hi hn hx => Ok.peekAt s a t hi hn hx
theorem Ok.next : Ok env base ns next ns (fun _ => True) := by
  intro s a t hi hn hx
  unfold PP.next at hx
  cases hp : PP.peekAt s.pos env s with
  | ok c u =>
    rw [hp] at hx
    cases hx
    obtain ⟨h1, h2, -⟩ := Ok.peekAt s c u hi hn hp
    exact ⟨⟨h1.val, h1.defs, h1.base⟩, h2, trivial⟩
  | fail => rw [hp] at hx; cases hx
theorem Ok.from_ {n : Nat} : Ok env base ns (from_ n) ns (fun _ => True) := by
  intro s a t hi hn hx
  unfold PP.from_ at hx
  split at hx
  · cases hx; exact ⟨hi, hn, trivial⟩
  · cases hx
theorem Ok.issueAt {n : Nat} {c : Code} : Ok env base ns (issueAt n c : P α) ms R :=
  Ok.bind (ms := ns) Ok.setPos fun _ _ => Ok.issue
theorem Ok.unterminatedQuote {n : Nat} : Ok env base ns (unterminatedQuote n : P α) ms R :=
  Ok.bind (ms := ns) Ok.setPos fun _ _ => Ok.issue

theorem Ok.bindIssue {c : Code} {f : α → P β} : Ok env base ns (PP.issue c >>= f) ms R' := fun _ _ _ _ _ hx => nomatch hx
theorem Ok.bindIssueAt {n : Nat} {c : Code} {f : α → P β} : Ok env base ns (PP.issueAt n c >>= f) ms R' := fun _ _ _ _ _ hx => nomatch hx
theorem Ok.bindCrash {c : Crash} {f : α → P β} : Ok env base ns (PP.crash c >>= f) ms R' := fun _ _ _ _ _ hx => nomatch hx

/-- Known calls. -/
syntax "okl" : tactic
macro_rules | `(tactic| okl) => `(tactic| assumption)
macro_rules | `(tactic| okl) => `(tactic| with_reducible exact Ok.pure trivial)
macro_rules | `(tactic| okl) => `(tactic| (with_reducible refine Ok.setTokenValue ?_; intro e h; cases h; done))
macro_rules | `(tactic| okl) => `(tactic| with_reducible exact Ok.modS (by intro _; exact ⟨rfl, rfl, rfl⟩))
macro_rules | `(tactic| okl) => `(tactic| first
  | with_reducible exact Ok.getS | with_reducible exact Ok.getEnv | with_reducible exact Ok.getPos | with_reducible exact Ok.curTok | with_reducible exact Ok.tokStart | with_reducible exact Ok.here
  | with_reducible exact Ok.tokenString | with_reducible exact Ok.setPos | with_reducible exact Ok.advance | with_reducible exact Ok.newLine | with_reducible exact Ok.setToken | with_reducible exact Ok.peekAt
  | with_reducible exact Ok.peek | with_reducible exact Ok.next | with_reducible exact Ok.from_ | with_reducible exact Ok.throwE | with_reducible exact Ok.issue | with_reducible exact Ok.crash | with_reducible exact Ok.timeout
  | with_reducible exact Ok.issueAt | with_reducible exact Ok.unterminatedQuote)

/-- One step into a function. -/
macro "ok1" : tactic => `(tactic| first
  | okl
  | with_reducible apply Ok.bindPure
  | with_reducible exact Ok.bindIssue
  | with_reducible exact Ok.bindIssueAt
  | with_reducible exact Ok.bindCrash
  | (with_reducible apply Ok.bind; (· okl); intro _ _)
  | (with_reducible refine Ok.bind (R := fun _ => True) (Ok.ite ?_ ?_) ?_ <;> intro _)
  | (with_reducible refine Ok.ite ?_ ?_ <;> intro _)
  | split
  | (dsimp only))

macro "ok" : tactic => `(tactic| repeat' ok1)

section
variable {base ns : List GoStr}
theorem Ok.advWhile (p : Nat → Bool) (f : Nat) : Ok env base ns (advWhile p f) ns (fun _ => True) := by
  induction f with
  | zero => unfold PP.advWhile; ok
  | succ f ih => unfold PP.advWhile; ok
end
end PP.Qu
