import Verif.Lemmas.Mono
import Verif.Spec.Grammar
import Verif.Spec.Bare

/-! # Running the parser on a stream of tokens -/
namespace PP
open PP.Spec

/-- The result of the computation `m` satisfies `R`, if the recursion may be deep enough. -/
structure EvR (env : Env) {α : Type} (m : Self → P α) (s : St) (R : Res α → Prop) : Prop where
  ex : ∃ k, ∀ f, k ≤ f → R (m (run f) env s)

/-- The computation `m` gives `a` and leaves `t`. -/
abbrev EvP (env : Env) {α : Type} (m : Self → P α) (s : St) (a : α) (t : St) : Prop := EvR env m s (fun r => r = .ok a t)

/-- The same for one of the recursive functions. -/
def EvN (env : Env) (x : NT) (s : St) (a : Out x) (t : St) : Prop := EvP env (fun self => self x) s a t

section
variable {env : Env} {s t u : St} {α β : Type} {a : α} {b : β} {R : Res α → Prop} {Q : Res β → Prop}

theorem EvP.bind {m : Self → P α} {f : Self → α → P β} (h : EvP env m s a t) (h2 : EvR env (fun self => f self a) t Q) :
    EvR env (fun self => m self >>= f self) s Q := by
  obtain ⟨k, h⟩ := h.ex
  obtain ⟨k', h2⟩ := h2.ex
  refine ⟨k + k', fun g hg => ?_⟩
  rw [bind_ok (h g (by omega))]
  exact h2 g (by omega)

theorem EvP.of {m : P α} (h : m env s = .ok a t) : EvP env (fun _ => m) s a t := ⟨0, fun _ _ => h⟩

theorem EvP.prim {m : P α} {f : Self → α → P β} (h : m env s = .ok a t) (h2 : EvR env (fun self => f self a) t Q) :
    EvR env (fun self => m >>= f self) s Q := EvP.bind (EvP.of h) h2

theorem EvP.ret : EvP env (fun _ => pure a) s a s := EvP.of rfl

theorem EvP.pos {c : Prop} [Decidable c] {m n : Self → P α} (hc : c) (h : EvR env m s R) :
    EvR env (fun self => if c then m self else n self) s R := by
  simp only [if_pos hc]; exact h

theorem EvP.neg {c : Prop} [Decidable c] {m n : Self → P α} (hc : ¬ c) (h : EvR env n s R) :
    EvR env (fun self => if c then m self else n self) s R := by
  simp only [if_neg hc]; exact h

theorem EvN.step {x : NT} {R : Res (Out x) → Prop} (h : EvR env (fun self => PP.step self x) s R) : EvR env (fun self => self x) s R := by
  obtain ⟨k, h⟩ := h.ex
  refine ⟨k + 1, fun f hf => ?_⟩
  obtain ⟨f, rfl⟩ : ∃ g, f = g + 1 := ⟨f - 1, by omega⟩
  exact h f (by omega)

theorem EvN.def {x : NT} {R : Res (Out x) → Prop} {m : Self → P (Out x)} (h : EvR env m s R) (hm : ∀ self, PP.step self x = m self) :
    EvR env (fun self => self x) s R := by
  refine EvN.step ?_
  simp only [hm]
  exact h

theorem assertToken_ok {k : Tok} (h : s.tok = k) : assertToken k env s = .ok () s := by
  unfold assertToken
  ex
  rw [if_pos h]

theorem tokenString_str {v : GoStr} (h : s.val = .str v) : tokenString env s = .ok v s := by
  unfold tokenString; rw [h]

theorem tokenString_nil (h : s.val = .nil) : tokenString env s = .ok s.tok.str s := by
  unfold tokenString; rw [h]

/-- Step over the operations that only look at the state. -/
macro "ev1" : tactic => `(tactic| first
  | with_reducible refine EvP.prim ex_getS ?_
  | with_reducible refine EvP.prim ex_curTok ?_
  | with_reducible refine EvP.prim ex_tokStart ?_
  | with_reducible refine EvP.prim ex_getPos ?_
  | with_reducible refine EvP.prim ex_getEnv ?_
  | with_reducible refine EvP.prim ex_here ?_
  | with_reducible refine EvP.prim ex_setPos ?_
  | with_reducible refine EvP.prim ex_setTokenValue ?_
  | with_reducible refine EvP.prim ex_modS ?_
  | with_reducible refine EvP.prim ex_pure ?_
  | with_reducible exact EvP.ret)
macro "ev" : tactic => `(tactic| repeat ev1)

end

/-- The current token. -/
def Reads : T → St → Prop
  | .int r v, s => s.tok = .integer ∧ s.val = .int v ∧ s.radix = r
  | .float v, s => s.tok = .float ∧ s.val = .flt ⟨false, v⟩
  | .str v, s => s.tok = .string ∧ s.val = .str v
  | .interp ps, s => s.tok = .concatenatedString ∧ ∃ p ps', s.val = .expr (.concat p ps') ∧ bareL ps' = ps
  | .heredoc sy e, s => s.tok = .heredoc ∧ ∃ p e', s.val = .expr (.heredoc p sy e') ∧ bare e' = e
  | .bool v, s => s.tok = .boolean ∧ s.val = .bool v
  | .dflt, s => s.tok = .kDefault ∧ s.val = .dflt
  | .regexp v, s => s.tok = .regexp ∧ s.val = .str v
  | .var v, s => s.tok = .variable ∧ s.val = .str v
  | .name v, s => s.tok = .identifier ∧ s.val = .str v
  | .render v, s => s.tok = .renderString ∧ s.val = .str v
  | .style k, s => s.tok = .identifier ∧ s.val = .str (styleName k)
  | .type v, s => s.tok = .typeName ∧ s.val = .str v
  | .word k, s => s.tok = k ∧ s.val = .str (spell k) ∧ k.isKeyword = true ∧ k ≠ .kDefault
  | .sign k, s => s.tok = k ∧ s.val = .nil
  | .brace, s => s.tok = .lc ∧ s.val = .nil
  | .sym .listStart, s => (s.tok = .listStart ∨ s.tok = .lb) ∧ s.val = .nil
  | .sym k, s => s.tok = k ∧ s.val = .nil

/-- Where a stream of tokens ends: at the end of the source or at the end of an interpolated expression. -/
class Ending where
  tok : Tok
  at_ : St → Prop
  same : ∀ s n d, at_ s → at_ { s with names := n, defs := d }
  /-- the position of the first token -/
  start : List T → Nat → Prop
  /-- the position behind the first token -/
  past : List T → Nat → Prop
  ahead : ∀ t ts p, start ts p → past (t :: ts) p
  last : ∀ s, at_ s → start [] s.tsp ∧ past [] s.pos

/-- Styles of steps are special in workflows. -/
structure Styled (env : Env) (t : T) : Prop where
  name : env.workflow = true → ∀ w, t = .name w → ∀ k, w ≠ styleName k
  style : ∀ k, t = .style k → env.workflow = true

/-- The character after the token, where the parser looks at it. -/
structure Peeks [Ending] (env : Env) (t : T) (ts : List T) (s : St) : Prop where
  sign : ∀ k, t = .sign k → ∃ c n, (∀ u : St, u.pos = s.pos → peek env u = .ok (c, n) u) ∧ isDecimalDigit c = true
  minus : t = .sym .subtract ∨ t = .sym .add → StartsNot isNumber ts → ∃ c n, (∀ u : St, u.pos = s.pos → peek env u = .ok (c, n) u) ∧ isDecimalDigit c = false
  start : Ending.start (t :: ts) s.tsp
  past : Ending.past (t :: ts) s.pos
  /-- in workflows, and only there, the names of the styles are not ordinary names -/
  name : Styled env t

/-- Reading the tokens `ts` again, after the first one or after the first two. -/
structure Rewinds (env : Env) (F : St → Prop) (ts : List T) (s s' : St) : Prop where
  star : ts.head? = some (.sym .multiply) → ∃ s1, EvN env .nextToken { s' with pos := s.pos } () s1 ∧ s1.names = s'.names ∧ F s1
  named : ∀ t u r, ts = t :: u :: r → plainName t = true → (attributeOperator u).isSome = true →
    ∀ s'', EvN env .nextToken s' () s'' → ∃ s1, EvN env .nextToken { s'' with pos := s.pos } () s1 ∧ s1.names = s''.names ∧ F s1

/-- The current token and those that follow.  The value of the token, the names and the definitions do not matter for the next
token. -/
def Feeds [Ending] (env : Env) : List T → St → Prop
  | [], s => s.tok = Ending.tok ∧ s.val = .nil ∧ Ending.at_ s
  | t :: ts, s => Reads t s ∧ Peeks env t ts s ∧ ∀ v n d, ∃ s', EvN env .nextToken { s with val := v, names := n, defs := d } () s' ∧
      s'.names = n ∧ Feeds env ts s' ∧
      (ts ≠ [] ∨ Ending.tok = .end_ → ∃ c p u, skipWhite false env s' = .ok (c, p) u ∧ u.names = n ∧ Feeds env ts { u with pos := p }) ∧
      (t = .brace → Rewinds env (Feeds env ts) ts s s')

/-- The first token of a stream. -/
def hd [Ending] : List T → Tok
  | [] => Ending.tok
  | t :: _ => t.tok

section
variable [Ending] {env : Env} {s : St} {t : T} {ts : List T}

theorem Feeds.reads (h : Feeds env (t :: ts) s) : Reads t s := h.1

theorem Feeds.with (h : Feeds env ts s) (n : List GoStr) (d : List Expr) : Feeds env ts { s with names := n, defs := d } := by
  cases ts with
  | nil => exact ⟨h.1, h.2.1, Ending.same _ _ _ h.2.2⟩
  | cons t ts =>
    obtain ⟨h1, h2, h3⟩ := h
    refine ⟨?_, ⟨h2.sign, h2.minus, h2.start, h2.past, h2.name⟩, fun v n d => ?_⟩
    · cases t with
      | sym k => cases k <;> exact h1
      | _ => exact h1
    · obtain ⟨s', h3, h4, h5, h6, h7⟩ := h3 v n d
      exact ⟨s', h3, h4, h5, h6, fun h => ⟨(h7 h).star, (h7 h).named⟩⟩

theorem Feeds.start (h : Feeds env ts s) : Ending.start ts s.tsp := by
  cases ts with
  | nil => exact (Ending.last _ h.2.2).1
  | cons t ts => exact h.2.1.start

theorem Feeds.past (h : Feeds env ts s) : Ending.past ts s.pos := by
  cases ts with
  | nil => exact (Ending.last _ h.2.2).2
  | cons t ts => exact h.2.1.past

theorem Feeds.next (h : Feeds env (t :: ts) s) : ∃ s', EvN env .nextToken s () s' ∧ s'.names = s.names ∧ Feeds env ts s' := by
  obtain ⟨-, -, h⟩ := h
  obtain ⟨s', h1, h2, h3, -⟩ := h s.val s.names s.defs
  exact ⟨s', h1, h2, h3⟩

theorem Feeds.nextSkip (h : Feeds env (t :: ts) s) (hne : ts ≠ []) : ∃ s' c p u, EvN env .nextToken s () s' ∧ u.names = s.names ∧
    skipWhite false env s' = .ok (c, p) u ∧ Feeds env ts { u with pos := p } := by
  obtain ⟨-, -, h⟩ := h
  obtain ⟨s', h1, h2, h3, h4, -⟩ := h s.val s.names s.defs
  obtain ⟨c, p, u, h5, h6, h7⟩ := h4 (.inl hne)
  exact ⟨s', c, p, u, h1, h6, h5, h7⟩

omit [Ending] in
theorem Reads.tok (h : Reads t s) : s.tok = t.tok ∨ (t = .sym .listStart ∧ s.tok = .lb) := by
  cases t with
  | sym k =>
    cases k
    case listStart => exact h.1.imp id fun h => ⟨rfl, h⟩
    all_goals exact .inl h.1
  | _ => exact .inl h.1

omit [Ending] in
theorem Reads.tok' (h : Reads t s) : s.tok = t.tok ∨ (t.tok = .listStart ∧ s.tok = .lb) := by
  rcases h.tok with h' | ⟨rfl, h'⟩
  · exact .inl h'
  · exact .inr ⟨rfl, h'⟩

theorem Feeds.tok (h : Feeds env ts s) : s.tok = hd ts ∨ (hd ts = .listStart ∧ s.tok = .lb) := by
  cases ts with
  | nil => exact .inl h.1
  | cons t ts =>
    rcases h.reads.tok with h' | ⟨rfl, h'⟩
    · exact .inl h'
    · exact .inr ⟨rfl, h'⟩

/-- A test on tokens that treats both brackets alike. -/
theorem Feeds.test (h : Feeds env ts s) {q : Tok → Bool} (hq : q (hd ts) = false) (hb : q .lb = q .listStart) : q s.tok = false := by
  rcases h.tok with h | ⟨h1, h2⟩
  · rw [h, hq]
  · rw [h2, hb, ← h1, hq]

theorem Feeds.tok_eq (h : Feeds env ts s) (hq : hd ts ≠ .listStart) : s.tok = hd ts := by
  rcases h.tok with h | ⟨h1, h2⟩
  · exact h
  · exact absurd h1 hq

theorem Feeds.ne (h : Feeds env ts s) {k : Tok} (hq : hd ts ≠ k) (hb : k ≠ .lb := by decide) : s.tok ≠ k := by
  rcases h.tok with h | ⟨h1, h2⟩
  · rw [h]; exact hq
  · rw [h2]; exact hb.symm

omit [Ending] in
theorem sym_reads {k : Tok} (h : Reads (.sym k) s) (hk : k ≠ .listStart := by decide) : s.tok = k ∧ s.val = .nil := by
  cases k
  case listStart => exact absurd rfl hk
  all_goals exact h

end
end PP
