import Verif.Lemmas.Bare

/-! # Facts about the grammar: kinds of trees, first tokens, tokens that continue a phrase -/
namespace PP
open PP.Spec

/-- Kinds of phrases whose trees are expressions. -/
def PlainAt : (n : N) → Spec.Res n → Prop
  | .bin _, e | .opd _, e | .assign, e | .res, e | .expr, e | .sel, e | .unary, e | .primary, e | .prim _, e | .callee _, e | .atom, e
  | .key, e | .typeDef, e | .block, e | .ifRest _, e | .elseRest _, e => plain e = true
  | _, _ => True

theorem operator_plain {l : Lvl} {t : T} {k : BinKind} (h : operator l t = some k) (a b : Expr) : plain (.bin z k a b) = true := by
  unfold operator at h
  split at h <;> first | (cases h; rfl) | cases h

theorem leafOf_plain {t : T} {e : Expr} (h : leafOf t = some e) : plain e = true := by
  unfold leafOf at h
  split at h <;> first | (cases h; rfl) | cases h

theorem keyOf_plain {t : T} {e : Expr} (h : keyOf t = some e) : plain e = true := by
  unfold keyOf at h
  split at h <;> first | (cases h; rfl) | cases h

theorem G_plain {ns : List GoStr} {n : N} {r : Spec.Res n} {ts : List T} (h : G ns n r ts) : PlainAt n r := by
  induction h <;> first
    | exact operator_plain ‹_› _ _
    | exact leafOf_plain ‹_›
    | exact keyOf_plain ‹_›
    | rfl | trivial | assumption
    | (cases ‹Elem› <;> trivial)

/-- Tokens that end a phrase. -/
def closer : Tok → Bool
  | .rp | .rb | .rc | .comma | .colon | .semicolon | .farrow | .pipeEnd | .rcollect | .rrcollect | .selc | .end_ => true
  | _ => false

/-- The phrase is not empty and starts with a token that satisfies `p`. -/
def FirstTok (p : Tok → Bool) (ts : List T) : Prop := ∃ t r, ts = t :: r ∧ p t.tok = true

def opens (t : Tok) : Bool := !closer t && t != .pipe
def opensPrimary (t : Tok) : Bool := opens t && !startsUnary t
def opensHost (t : Tok) : Bool := !closer t && t != .kInherits && t != .lc

def isQuery : Tok → Bool
  | .lcollect | .llcollect => true
  | _ => false
def isTok (k t : Tok) : Bool := t == k
def isTypeDef : Tok → Bool
  | .kType | .renderExpr => true
  | _ => false
def notRc (t : Tok) : Bool := t != .rc

def FirstAt : (n : N) → List T → Prop
  | .bin _, ts | .opd _, ts | .assign, ts | .res, ts | .expr, ts | .sel, ts | .unary, ts | .key, ts | .elem _, ts | .attr, ts
  | .resType false, ts | .bodies, ts => FirstTok opens ts
  | .resType true, ts => FirstTok opensPrimary ts
  | .primary, ts | .prim _, ts | .callee _, ts | .dotted, ts | .atom, ts => FirstTok opensPrimary ts
  | .options, ts => FirstTok notRc ts
  | .host, ts | .hosts, ts | .segs, ts => FirstTok opensHost ts
  | .typeDef, ts => FirstTok isTypeDef ts
  | .typ, ts => FirstTok (isTok .typeName) ts
  | .block, ts | .stepHead _, ts | .stepBody _, ts => FirstTok (isTok .lc) ts
  | .lambda, ts => FirstTok (isTok .pipe) ts
  | .query, ts => FirstTok isQuery ts
  | .commas, ts => FirstTok opens ts
  | .many _, ts => ts = [] ∨ FirstTok opens ts
  | .optTyp, ts => ts = [] ∨ FirstTok (isTok .typeName) ts
  | _, _ => True

theorem FirstTok.append {p : Tok → Bool} {a b : List T} (h : FirstTok p a) : FirstTok p (a ++ b) := by
  obtain ⟨t, r, rfl, h⟩ := h
  exact ⟨t, r ++ b, rfl, h⟩

theorem FirstTok.imp {p q : Tok → Bool} {a : List T} (h : FirstTok p a) (hq : ∀ t, p t = true → q t = true) : FirstTok q a := by
  obtain ⟨t, r, rfl, h⟩ := h
  exact ⟨t, r, rfl, hq _ h⟩

theorem FirstTok.mk {p : Tok → Bool} {t : T} {r : List T} (h : p t.tok = true) : FirstTok p (t :: r) := ⟨t, r, rfl, h⟩

theorem opensPrimary_opens (t : Tok) (h : opensPrimary t = true) : opens t = true := by
  simp only [opensPrimary, Bool.and_eq_true] at h
  exact h.1

theorem leafOf_first {t : T} {e : Expr} (h : leafOf t = some e) : opensPrimary t.tok = true := by
  unfold leafOf at h
  split at h <;> first | rfl | cases h

theorem keyOf_first {t : T} {e : Expr} (h : keyOf t = some e) : opens t.tok = true := by
  unfold keyOf at h
  split at h <;> first | rfl | cases h

theorem attributeOf_first {t : T} {e : GoStr} (h : attributeOf t = some e) : opens t.tok = true := by
  unfold attributeOf at h
  split at h
  · rfl
  · rfl
  · rfl
  · rename_i k
    cases k <;> first | rfl | cases h
  · cases h

theorem hiddenForm_first {t : T} {f : Form} (h : hiddenForm t = some f) : opens t.tok = true := by
  unfold hiddenForm at h
  split at h <;> first | rfl | cases h

theorem isParen_first {t : T} (h : isParen t = true) : opensPrimary t.tok = true := by
  unfold isParen at h
  split at h <;> first | rfl | cases h

theorem isBracket_first {t : T} (h : isBracket t = true) : opensPrimary t.tok = true := by
  unfold isBracket at h
  split at h <;> first | rfl | cases h

theorem hostOf_first {t : T} {e : Expr} (h : hostOf t = some e) : opensHost t.tok = true := by
  unfold hostOf at h
  split at h <;> first | rfl | cases h

theorem segmentOf_first {t : T} {e : GoStr} (h : segmentOf t = some e) : opensHost t.tok = true := by
  unfold segmentOf at h
  split at h <;> first | rfl | cases h

theorem ne_rc_of_opens (t : Tok) (h : opens t = true) : notRc t = true := by
  cases t <;> first | rfl | cases h

theorem opens_typeName (t : Tok) (h : isTok .typeName t = true) : opens t = true := by
  unfold isTok at h; rw [beq_iff_eq] at h; rw [h]; rfl

theorem first_opt {p q : Tok → Bool} {a b : List T} (h : a = [] ∨ FirstTok p a) (hp : ∀ t, p t = true → q t = true)
    (hb : FirstTok q b) : FirstTok q (a ++ b) := by
  rcases h with rfl | h
  · exact hb
  · exact (h.imp hp).append

theorem G_first {ns : List GoStr} {n : N} {r : Spec.Res n} {ts : List T} (h : G ns n r ts) : FirstAt n ts := by
  induction h <;> first
    | assumption
    | exact FirstTok.append ‹_›
    | exact FirstTok.imp ‹_› opensPrimary_opens
    | exact FirstTok.mk rfl
    | exact FirstTok.append (FirstTok.imp ‹_› opensPrimary_opens)
    | (refine FirstTok.mk ?_; decide)
    | exact Or.inr (FirstTok.append ‹_›)
    | exact first_opt ‹_› opens_typeName (FirstTok.mk rfl)
    | exact first_opt ‹_› ne_rc_of_opens (FirstTok.mk (by decide))
    | exact FirstTok.mk (leafOf_first ‹_›)
    | exact FirstTok.mk (keyOf_first ‹_›)
    | exact FirstTok.mk (attributeOf_first ‹_›)
    | exact FirstTok.mk (hiddenForm_first ‹_›)
    | exact FirstTok.mk (isParen_first ‹_›)
    | exact FirstTok.mk (isBracket_first ‹_›)
    | exact FirstTok.mk (hostOf_first ‹_›)
    | exact FirstTok.mk (segmentOf_first ‹_›)
    | trivial
    | exact Or.inl rfl
    | (cases ‹Bool› <;> exact FirstTok.mk rfl)
    | exact Or.inr ‹_›

end PP
