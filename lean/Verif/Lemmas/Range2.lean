import Verif.Lemmas.Range1

/-! # Byte ranges of nodes: what the parser guarantees

`InR env g e`: the range of every node of `e` lies in the text; nodes start no later than their parts (`loose` nodes excepted)
and, where `g` is set, end no earlier.  `g` is unset inside interpolations.  `Pre`/`Post` say what the recursive functions
require and guarantee. -/
namespace PP.Rg
open PP

/-- `TextExpression`: an interpolation. -/
def isText : Expr → Bool
  | .un _ .text _ => true
  | _ => false

/-- Nodes that may start after their first part. -/
def loose : Expr → Bool
  | .block .. | .caseOption .. | .selectorEntry .. | .capabilityMapping .. => true
  | _ => false

/-- Type names, lists and hashes: they start with the first byte of their first token. -/
def isLit : Expr → Bool
  | .qref .. | .list .. | .hash .. => true
  | _ => false

/-- Where a node ends. -/
abbrev fin (e : Expr) : Int := (e.pos.off : Int) + e.pos.len

inductive InR (env : Env) : Bool → Expr → Prop
  | mk {g e} (len : 0 ≤ e.pos.len) (le : fin e ≤ env.text.length)
      (sub : ∀ k ∈ e.kids, InR env (g && !isText e) k)
      (lo : ∀ k ∈ e.kids, loose e = false → e.pos.off ≤ k.pos.off)
      (hi : g = true → ∀ k ∈ e.kids, fin k ≤ fin e) : InR env g e

/-! ## Positions of nodes -/

section
variable {p : Pos}

theorem pos_access {a b} : (Expr.access p a b).pos = p := rfl
theorem pos_bin {a b c} : (Expr.bin p a b c).pos = p := rfl
theorem pos_un {a b} : (Expr.un p a b).pos = p := rfl
theorem pos_query {a b} : (Expr.query p a b).pos = p := rfl
theorem pos_attributeOp {a b c} : (Expr.attributeOp p a b c).pos = p := rfl
theorem pos_attributesOp {a} : (Expr.attributesOp p a).pos = p := rfl
theorem pos_block {a} : (Expr.block p a).pos = p := rfl
theorem pos_call {a b c d e} : (Expr.call p a b c d e).pos = p := rfl
theorem pos_capabilityMapping {a b c d} : (Expr.capabilityMapping p a b c d).pos = p := rfl
theorem pos_caseE {a b} : (Expr.caseE p a b).pos = p := rfl
theorem pos_caseOption {a b} : (Expr.caseOption p a b).pos = p := rfl
theorem pos_collect {a b c} : (Expr.collect p a b c).pos = p := rfl
theorem pos_concat {a} : (Expr.concat p a).pos = p := rfl
theorem pos_epp {a b} : (Expr.epp p a b).pos = p := rfl
theorem pos_heredoc {a b} : (Expr.heredoc p a b).pos = p := rfl
theorem pos_ifE {a b c d} : (Expr.ifE p a b c d).pos = p := rfl
theorem pos_keyedEntry {a b} : (Expr.keyedEntry p a b).pos = p := rfl
theorem pos_lambda {a b c} : (Expr.lambda p a b c).pos = p := rfl
theorem pos_boolean {a} : (Expr.boolean p a).pos = p := rfl
theorem pos_dflt : (Expr.dflt p).pos = p := rfl
theorem pos_float {a} : (Expr.float p a).pos = p := rfl
theorem pos_hash {a} : (Expr.hash p a).pos = p := rfl
theorem pos_integer {a b} : (Expr.integer p a b).pos = p := rfl
theorem pos_list {a} : (Expr.list p a).pos = p := rfl
theorem pos_string {a} : (Expr.string p a).pos = p := rfl
theorem pos_undef : (Expr.undef p).pos = p := rfl
theorem pos_nop : (Expr.nop p).pos = p := rfl
theorem pos_namedDef {a b c d} : (Expr.namedDef p a b c d).pos = p := rfl
theorem pos_function {a b c d e} : (Expr.function p a b c d e).pos = p := rfl
theorem pos_node {a b c} : (Expr.node p a b c).pos = p := rfl
theorem pos_parameter {a b c d} : (Expr.parameter p a b c d).pos = p := rfl
theorem pos_program {a b} : (Expr.program p a b).pos = p := rfl
theorem pos_qname {a} : (Expr.qname p a).pos = p := rfl
theorem pos_qref {a b} : (Expr.qref p a b).pos = p := rfl
theorem pos_regexp {a} : (Expr.regexp p a).pos = p := rfl
theorem pos_renderString {a} : (Expr.renderString p a).pos = p := rfl
theorem pos_reserved {a b} : (Expr.reserved p a b).pos = p := rfl
theorem pos_resource {a b c} : (Expr.resource p a b c).pos = p := rfl
theorem pos_resourceBody {a b} : (Expr.resourceBody p a b).pos = p := rfl
theorem pos_resourceDefaults {a b c} : (Expr.resourceDefaults p a b c).pos = p := rfl
theorem pos_resourceOverride {a b c} : (Expr.resourceOverride p a b c).pos = p := rfl
theorem pos_selector {a b} : (Expr.selector p a b).pos = p := rfl
theorem pos_selectorEntry {a b} : (Expr.selectorEntry p a b).pos = p := rfl
theorem pos_site {a} : (Expr.site p a).pos = p := rfl
theorem pos_typeAlias {a b} : (Expr.typeAlias p a b).pos = p := rfl
theorem pos_typeDefinition {a b c} : (Expr.typeDefinition p a b c).pos = p := rfl
theorem pos_typeMapping {a b} : (Expr.typeMapping p a b).pos = p := rfl
theorem pos_step {a b c d} : (Expr.step p a b c d).pos = p := rfl
theorem pos_commaSep {a} : (Expr.commaSep p a).pos = p := rfl
end

/-- Positions of nodes, in a form that `omega` understands. -/
macro "ps" : tactic => `(tactic| simp only [fin, Expr.off, Expr.len, pos_access, pos_bin, pos_un, pos_query, pos_attributeOp, pos_attributesOp, pos_block, pos_call, pos_capabilityMapping, pos_caseE, pos_caseOption, pos_collect, pos_concat, pos_epp, pos_heredoc, pos_ifE, pos_keyedEntry, pos_lambda, pos_boolean, pos_dflt, pos_float, pos_hash, pos_integer, pos_list, pos_string, pos_undef, pos_nop, pos_namedDef, pos_function, pos_node, pos_parameter, pos_program, pos_qname, pos_qref, pos_regexp, pos_renderString, pos_reserved, pos_resource, pos_resourceBody, pos_resourceDefaults, pos_resourceOverride, pos_selector, pos_selectorEntry, pos_site, pos_typeAlias, pos_typeDefinition, pos_typeMapping, pos_step, pos_commaSep])
macro "ps" "at" h:ident : tactic => `(tactic| simp only [fin, Expr.off, Expr.len, pos_access, pos_bin, pos_un, pos_query, pos_attributeOp, pos_attributesOp, pos_block, pos_call, pos_capabilityMapping, pos_caseE, pos_caseOption, pos_collect, pos_concat, pos_epp, pos_heredoc, pos_ifE, pos_keyedEntry, pos_lambda, pos_boolean, pos_dflt, pos_float, pos_hash, pos_integer, pos_list, pos_string, pos_undef, pos_nop, pos_namedDef, pos_function, pos_node, pos_parameter, pos_program, pos_qname, pos_qref, pos_regexp, pos_renderString, pos_reserved, pos_resource, pos_resourceBody, pos_resourceDefaults, pos_resourceOverride, pos_selector, pos_selectorEntry, pos_site, pos_typeAlias, pos_typeDefinition, pos_typeMapping, pos_step, pos_commaSep] at $h:ident)
macro "psall" : tactic => `(tactic| simp only [fin, Expr.off, Expr.len, pos_access, pos_bin, pos_un, pos_query, pos_attributeOp, pos_attributesOp, pos_block, pos_call, pos_capabilityMapping, pos_caseE, pos_caseOption, pos_collect, pos_concat, pos_epp, pos_heredoc, pos_ifE, pos_keyedEntry, pos_lambda, pos_boolean, pos_dflt, pos_float, pos_hash, pos_integer, pos_list, pos_string, pos_undef, pos_nop, pos_namedDef, pos_function, pos_node, pos_parameter, pos_program, pos_qname, pos_qref, pos_regexp, pos_renderString, pos_reserved, pos_resource, pos_resourceBody, pos_resourceDefaults, pos_resourceOverride, pos_selector, pos_selectorEntry, pos_site, pos_typeAlias, pos_typeDefinition, pos_typeMapping, pos_step, pos_commaSep] at *)
/-- Close a goal about positions. -/
macro "pm" : tactic => `(tactic| first | omega | (ps; omega) | (psall; omega))

section
variable {env : Env} {g : Bool} {e k : Expr} {s t : St} {b m l0 : Nat}

theorem InR.len (h : InR env g e) : 0 ≤ e.pos.len := by cases h; assumption
theorem InR.le (h : InR env g e) : fin e ≤ env.text.length := by cases h; assumption
theorem InR.sub (h : InR env g e) : ∀ k ∈ e.kids, InR env (g && !isText e) k := by cases h; assumption
theorem InR.lo (h : InR env g e) : ∀ k ∈ e.kids, loose e = false → e.pos.off ≤ k.pos.off := by cases h; assumption
theorem InR.hi (h : InR env g e) : g = true → ∀ k ∈ e.kids, fin k ≤ fin e := by cases h; assumption

theorem InR.weak (h : InR env g e) : InR env false e := by
  induction h with
  | mk len le _ lo _ ih => exact ⟨len, le, ih, lo, fun h => nomatch h⟩

/-- A part of a node that starts at `lo` and ends at `hi`. -/
structure Part (env : Env) (g : Bool) (lo : Nat) (hi : Int) (k : Expr) : Prop where
  inr : InR env g k
  lo : lo ≤ k.pos.off
  hi : g = true → fin k ≤ hi

/-- Build a node from its parts. -/
theorem InR.node (h0 : 0 ≤ e.pos.len) (h1 : fin e ≤ env.text.length) (ht : isText e = false)
    (h : ∀ k ∈ e.kids, Part env g e.pos.off (fin e) k) : InR env g e :=
  ⟨h0, h1, fun k hk => by rw [ht, Bool.not_false, Bool.and_true]; exact (h k hk).inr, fun k hk _ => (h k hk).lo,
    fun hg k hk => (h k hk).hi hg⟩

theorem InR.leaf (h0 : 0 ≤ e.pos.len) (h1 : fin e ≤ env.text.length) (hk : e.kids = []) : InR env g e :=
  ⟨h0, h1, by rw [hk]; exact fun k h => (nomatch h), by rw [hk]; exact fun k h => (nomatch h), by rw [hk]; exact fun _ k h => (nomatch h)⟩

/-- `block`, `caseOption`, `selectorEntry` and `capabilityMapping`. -/
theorem InR.looseNode (hl : loose e = true) (h0 : 0 ≤ e.pos.len) (h1 : fin e ≤ env.text.length)
    (h : ∀ k ∈ e.kids, InR env true k ∧ fin k ≤ fin e) : InR env true e := by
  have ht : isText e = false := by cases e <;> first | rfl | (cases hl)
  exact ⟨h0, h1, fun k hk => by rw [ht]; exact (h k hk).1, fun _ _ h => (by rw [hl] at h; cases h), fun _ k hk => (h k hk).2⟩

theorem setPos_pos (e : Expr) (p : Pos) : (e.setPos p).pos = p := by cases e <;> rfl
theorem setPos_kids (e : Expr) (p : Pos) : (e.setPos p).kids = e.kids := by cases e <;> rfl
theorem setPos_text (e : Expr) (p : Pos) : isText (e.setPos p) = isText e := by
  cases e <;> try rfl
  rename_i k _; cases k <;> rfl
theorem setPos_loose (e : Expr) (p : Pos) : loose (e.setPos p) = loose e := by cases e <;> rfl

/-- A node may grow. -/
theorem InR.setPos {p : Pos} (h : InR env g e) (h1 : p.off ≤ e.pos.off) (h2 : fin e ≤ (p.off : Int) + p.len)
    (h3 : (p.off : Int) + p.len ≤ env.text.length) : InR env g (e.setPos p) := by
  have h4 := h.len
  simp only [fin] at *
  refine ⟨by rw [setPos_pos]; omega, by rw [fin, setPos_pos]; exact h3, by rw [setPos_kids, setPos_text]; exact h.sub, ?_, ?_⟩
  · rw [setPos_kids, setPos_pos, setPos_loose]
    intro k hk hl
    have := h.lo k hk hl
    omega
  · rw [setPos_kids, fin, setPos_pos]
    intro hg k hk
    have := h.hi hg k hk
    simp only [fin] at *
    omega

/-- Lists of nodes: ordered, from `lo`; all start before `b` and end before `hi`. -/
structure Lst (env : Env) (lo b : Nat) (hi : Int) (es : List Expr) : Prop where
  inr : ∀ e ∈ es, InR env true e
  lo : ∀ e ∈ es, lo ≤ e.pos.off
  off : ∀ e ∈ es, e.pos.off ≤ b
  hi : ∀ e ∈ es, fin e ≤ hi
  ord : es.Pairwise fun x y => x.pos.off ≤ y.pos.off ∧ fin x ≤ fin y

theorem Lst.nil {hi : Int} : Lst env l0 b hi [] := ⟨by simp, by simp, by simp, by simp, .nil⟩

theorem Lst.mono {lo' b' : Nat} {hi hi' : Int} {es : List Expr} (h : Lst env l0 b hi es) (h1 : lo' ≤ l0) (h2 : b ≤ b') (h3 : hi ≤ hi') :
    Lst env lo' b' hi' es :=
  ⟨h.inr, fun e he => by have := h.lo e he; omega, fun e he => by have := h.off e he; omega,
    fun e he => by have := h.hi e he; omega, h.ord⟩

theorem Lst.snoc {b' : Nat} {hi hi' : Int} {es : List Expr} (h : Lst env l0 b hi es) (he : InR env true e)
    (h1 : l0 ≤ b) (h2 : b ≤ e.pos.off) (h3 : e.pos.off ≤ b') (h4 : hi ≤ fin e) (h5 : fin e ≤ hi') :
    Lst env l0 b' hi' (es ++ [e]) := by
  refine ⟨?_, ?_, ?_, ?_, ?_⟩
  · intro x hx
    rcases List.mem_append.1 hx with hx | hx
    · exact h.inr x hx
    · cases List.mem_singleton.1 hx; exact he
  · intro x hx
    rcases List.mem_append.1 hx with hx | hx
    · exact h.lo x hx
    · cases List.mem_singleton.1 hx; omega
  · intro x hx
    rcases List.mem_append.1 hx with hx | hx
    · have := h.off x hx; omega
    · cases List.mem_singleton.1 hx; exact h3
  · intro x hx
    rcases List.mem_append.1 hx with hx | hx
    · have := h.hi x hx; omega
    · cases List.mem_singleton.1 hx; exact h5
  · rw [List.pairwise_append]
    refine ⟨h.ord, by simp, ?_⟩
    intro x hx y hy
    cases List.mem_singleton.1 hy
    have := h.off x hx
    have := h.hi x hx
    constructor <;> omega

theorem Lst.part {lo' : Nat} {hi hi' : Int} {es : List Expr} (h : Lst env l0 b hi es) (h1 : lo' ≤ l0) (h2 : hi ≤ hi') :
    ∀ e ∈ es, Part env true lo' hi' e := fun e he =>
  ⟨h.inr e he, by have := h.lo e he; omega, fun _ => by have := h.hi e he; omega⟩

/-- The state after a token was read that begins at `b` or later; an expression that the token carries ends at `m` or later. -/
structure In (env : Env) (b m : Nat) (s : St) : Prop where
  nls : s.nls = none
  defs : ∀ d ∈ s.defs, InR env true d
  lo : b ≤ s.tsp
  tsp : s.tsp ≤ s.pos
  le : s.pos ≤ env.text.length
  mle : m ≤ s.pos
  val : ∀ e, s.val = .expr e → InR env true e ∧ b ≤ e.pos.off ∧ (m : Int) ≤ fin e ∧ fin e ≤ s.pos ∧ isLit e = false
  var : s.tok = .variable → s.tsp < s.pos ∧ ∀ v, s.val = .str v → s.tsp + 1 + v.length ≤ s.pos

theorem In.mono {b' m' : Nat} (h : In env b m s) (h1 : b' ≤ b) (h2 : m' ≤ m) : In env b' m' s :=
  ⟨h.nls, h.defs, Nat.le_trans h1 h.lo, h.tsp, h.le, Nat.le_trans h2 h.mle,
    fun e he => by obtain ⟨a, b, c, d⟩ := h.val e he; exact ⟨a, by omega, by omega, d⟩, h.var⟩

theorem In.rd (h : In env b m s) : Rd env s := ⟨h.nls, h.le⟩

/-- What a function that parses a value guarantees. -/
structure V (env : Env) (b m : Nat) (s : St) (e : Expr) (t : St) : Prop where
  inr : InR env true e
  lo : b ≤ e.pos.off
  m : (m : Int) ≤ fin e
  hi : fin e ≤ t.pos
  st : ∃ n, s.pos ≤ n ∧ e.pos.off ≤ n ∧ In env n t.pos t

/-- What the loops guarantee that continue with a value. -/
structure W (env : Env) (b : Nat) (s : St) (e e' : Expr) (t : St) : Prop where
  inr : InR env true e'
  off : e'.pos.off = e.pos.off
  m : fin e ≤ fin e'
  hi : fin e' ≤ t.pos
  mono : s.pos ≤ t.pos
  st : In env b t.pos t

/-- Lists. -/
structure L (env : Env) (lo b : Nat) (s : St) (es : List Expr) (t : St) : Prop where
  lst : Lst env lo t.pos t.pos es
  mono : s.pos ≤ t.pos
  st : In env b t.pos t

/-- Producers that are only used in workflows. -/
def wfProducer : Producer → Bool
  | .stepProperty | .stateAttribute | .returnParameter | .attributeAlias => true
  | _ => false

variable (env)

/-- Preconditions. -/
def Pre : NT → Nat → Nat → Nat → St → Prop
  | .nextToken, b, _, _, s => Rd env s ∧ (∀ d ∈ s.defs, InR env true d) ∧ b ≤ s.pos
  | .delim _ _ _ _ _ ec start segs, b, _, _, s => Rd env s ∧ (∀ d ∈ s.defs, InR env true d) ∧ b ≤ s.tsp ∧ s.tsp ≤ s.pos ∧
      (ec ≠ 0 → s.tsp ≤ start ∧ start < s.pos) ∧ Lst env b s.tsp s.tsp segs
  | .escapes .., _, _, _, _ => False
  | .parse _ _, b, m, _, s => In env b m s
  | .stmts _ acc, b, m, lo, s => In env b m s ∧ lo ≤ b ∧ Lst env lo b m acc
  | .commaArgs acc, b, _, lo, s | .caseOptions acc, b, _, lo, s | .attrOps acc, b, _, lo, s | .hostnames acc, b, _, lo, s
  | .eppLoop acc, b, _, lo, s =>
    In env b s.pos s ∧ lo ≤ b ∧ Lst env lo b s.pos acc
  | .exprs _ p acc, b, _, lo, s => wfProducer p = false ∧ In env b s.pos s ∧ lo ≤ b ∧ Lst env lo b s.pos acc
  | .assignment, b, m, _, s | .expression, b, m, _, s | .binary _, b, m, _, s | .unary, b, m, _, s
  | .primary, b, m, _, s | .atom, b, m, _, s | .ifExpr _, b, m, _, s => In env b m s
  | .assignLoop e, b, _, _, s | .selLoop e, b, _, _, s | .binLoop _ e, b, _, _, s | .primLoop e, b, _, _, s =>
    In env b s.pos s ∧ InR env true e ∧ e.pos.off ≤ b ∧ fin e ≤ s.pos
  | .resourceExpr start first _, b, _, _, s =>
    In env b s.pos s ∧ InR env true first ∧ start ≤ first.pos.off ∧ start ≤ b ∧ fin first ≤ s.pos
  | .resourceBodies title acc, b, _, lo, s =>
    In env b s.pos s ∧ InR env true title ∧ title.pos.off ≤ b ∧ fin title ≤ s.pos ∧ lo ≤ title.pos.off ∧
      (∀ x ∈ acc, InR env true x ∧ lo ≤ x.pos.off ∧ fin x ≤ s.pos)
  | .dottedName start _, b, m, _, s => In env b m s ∧ start ≤ s.tsp
  | .activities _, _, _, _, _ => False

/-- Postconditions. -/
def Post : (n : NT) → Nat → Nat → Nat → St → Out n → St → Prop
  | .nextToken, b, _, _, s, _, t => In env b t.pos t ∧ s.pos ≤ t.tsp
  | .delim _ _ i _ _ _ _ _, b, _, _, s, segs, t => (i = false → t.tsp = s.tsp) ∧ Rd env t ∧ (∀ d ∈ t.defs, InR env true d) ∧ s.tsp ≤ t.tsp ∧ t.tsp ≤ t.pos ∧ s.pos ≤ t.pos ∧
      t.tok ≠ .variable ∧ (∀ e, t.val ≠ .expr e) ∧ Lst env b t.tsp t.tsp segs
  | .escapes .., _, _, _, _, _, _ => True
  | .parse _ single, b, _, _, s, e, t => InR env true e ∧ b ≤ e.pos.off ∧ (single = true → e.pos.off ≤ t.pos) ∧ fin e ≤ t.pos ∧ s.pos ≤ t.pos ∧ In env b b t
  | .stmts _ _, b, _, lo, s, es, t => Lst env lo t.pos t.pos es ∧ s.pos ≤ t.pos ∧ In env b b t
  | .commaArgs _, b, _, lo, s, es, t | .caseOptions _, b, _, lo, s, es, t | .attrOps _, b, _, lo, s, es, t
  | .hostnames _, b, _, lo, s, es, t | .eppLoop _, b, _, lo, s, es, t | .exprs _ _ _, b, _, lo, s, es, t => L env lo b s es t
  | .assignment, b, m, _, s, e, t | .expression, b, m, _, s, e, t | .binary _, b, m, _, s, e, t | .unary, b, m, _, s, e, t
  | .primary, b, m, _, s, e, t | .atom, b, m, _, s, e, t | .ifExpr _, b, m, _, s, e, t => V env b m s e t
  | .assignLoop e, b, _, _, s, e', t | .selLoop e, b, _, _, s, e', t | .binLoop _ e, b, _, _, s, e', t
  | .primLoop e, b, _, _, s, e', t => W env b s e e' t
  | .resourceExpr start _ _, _, _, _, s, e, t => InR env true e ∧ e.pos.off = start ∧ s.pos ≤ fin e ∧ fin e ≤ t.pos ∧ In env s.pos t.pos t
  | .resourceBodies _ _, b, _, lo, s, es, t =>
    (∀ x ∈ es, InR env true x ∧ lo ≤ x.pos.off ∧ fin x ≤ t.pos) ∧ s.pos ≤ t.pos ∧ In env b t.pos t
  | .dottedName start _, _, _, _, s, e, t => InR env true e ∧ e.pos.off = start ∧ s.pos ≤ fin e ∧ fin e ≤ t.pos ∧ In env s.pos t.pos t
  | .activities _, _, _, _, _, _, _ => True

/-- The recursive calls do what they should. -/
def HS (self : Self) : Prop :=
  ∀ n b m lo s, Pre env n b m lo s → wp env (self n) (Post env n b m lo s) tt s

variable {env}

/-! ## CPS forms -/

section
variable {self : Self} {Q : Expr → St → Prop}

theorem HS.tok (H : HS env self) (hr : Rd env s) (hd : ∀ d ∈ s.defs, InR env true d) {Q : Unit → St → Prop}
    (k : ∀ t, In env s.pos t.pos t → s.pos ≤ t.tsp → t.tsp ≤ t.pos → t.pos ≤ env.text.length → Q () t) :
    wp env (self .nextToken) Q tt s :=
  wp_imp (H .nextToken s.pos 0 0 s ⟨hr, hd, Nat.le_refl _⟩) fun _ t ht => k t ht.1 ht.2 ht.1.tsp ht.1.le

theorem HS.tok' (H : HS env self) (hi : In env b m s) {Q : Unit → St → Prop}
    (k : ∀ t, In env s.pos t.pos t → s.pos ≤ t.tsp → t.tsp ≤ t.pos → t.pos ≤ env.text.length → Q () t) :
    wp env (self .nextToken) Q tt s := H.tok hi.rd hi.defs k

/-- The calls that parse a value. -/
def isVal : NT → Prop
  | .assignment | .expression | .binary _ | .unary | .primary | .atom | .ifExpr _ => True
  | _ => False

theorem V.cps {x : P Expr} (h : wp env x (V env b m s) tt s)
    (k : ∀ e t n, InR env true e → b ≤ e.pos.off → e.pos.off ≤ n → (m : Int) ≤ fin e → fin e ≤ t.pos →
      In env n t.pos t → s.pos ≤ n ∧ n ≤ t.tsp → t.tsp ≤ t.pos → t.pos ≤ env.text.length → Q e t) : wp env x Q tt s :=
  wp_imp h fun e t v => by obtain ⟨n, h1, h2, h3⟩ := v.st; exact k e t n v.inr v.lo h2 v.m v.hi h3 ⟨h1, h3.lo⟩ h3.tsp h3.le

theorem W.cps {x : P Expr} (h : wp env x (W env b s e) tt s)
    (k : ∀ e' t, InR env true e' → e'.pos.off = e.pos.off → fin e ≤ fin e' → fin e' ≤ t.pos → s.pos ≤ t.pos →
      In env b t.pos t → b ≤ t.tsp → t.tsp ≤ t.pos → t.pos ≤ env.text.length → Q e' t) : wp env x Q tt s :=
  wp_imp h fun e t v => k e t v.inr v.off v.m v.hi v.mono v.st v.st.lo v.st.tsp v.st.le

theorem L.cps {x : P (List Expr)} {Q : List Expr → St → Prop} (h : wp env x (L env l0 b s) tt s)
    (k : ∀ es t, Lst env l0 t.pos t.pos es → s.pos ≤ t.pos → In env b t.pos t → b ≤ t.tsp → t.tsp ≤ t.pos →
      t.pos ≤ env.text.length → Q es t) : wp env x Q tt s :=
  wp_imp h fun e t v => k e t v.lst v.mono v.st v.st.lo v.st.tsp v.st.le

end
end
end PP.Rg
