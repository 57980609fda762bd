import Verif.Lemmas.Decode5

/-! # `canon` of a tree without `elsif` and without dangling comma. -/
namespace PP.Decode
open PP.Spec PP.Props

def Plain (e : Expr) : Prop := ∀ x ∈ subexpressions e, AsWritten x

theorem Plain.kid {e k : Expr} (h : Plain e) (hk : k ∈ e.kids) : Plain k :=
  fun x hx => h x (mem_subexpressions_kid hk hx)

theorem Plain.self {e : Expr} (h : Plain e) : AsWritten e := h e (List.mem_cons_self ..)

mutual
theorem canon_bare : ∀ e, Plain e → canon e = bare e
  | .access q a b, h => by
    simp only [canon, bare, canon_bare a (h.kid (by simp [Expr.kids])), canonL_bare b (fun x hx => h.kid (by simp [Expr.kids, hx]))]
  | .bin q a b c, h => by
    simp only [canon, bare, canon_bare b (h.kid (by simp [Expr.kids])), canon_bare c (h.kid (by simp [Expr.kids]))]
  | .un q a b, h => by
    simp only [canon, bare, canon_bare b (h.kid (by simp [Expr.kids]))]
  | .query q a b, h => by
    simp only [canon, bare, canon_bare b (h.kid (by simp [Expr.kids]))]
  | .attributeOp q a b c, h => by
    simp only [canon, bare, canon_bare c (h.kid (by simp [Expr.kids]))]
  | .attributesOp q a, h => by
    simp only [canon, bare, canon_bare a (h.kid (by simp [Expr.kids]))]
  | .block q a, h => by
    simp only [canon, bare, canonL_bare a (fun x hx => h.kid (by simp [Expr.kids, hx]))]
  | .call q a b c d e, h => by
    simp only [canon, bare, canon_bare c (h.kid (by simp [Expr.kids])), canonL_bare d (fun x hx => h.kid (by simp [Expr.kids, hx])), canonO_bare e (fun x hx => h.kid (by subst hx; simp [Expr.kids]))]
  | .capabilityMapping q a b c d, h => by
    simp only [canon, bare, canon_bare c (h.kid (by simp [Expr.kids])), canonL_bare d (fun x hx => h.kid (by simp [Expr.kids, hx]))]
  | .caseE q a b, h => by
    simp only [canon, bare, canon_bare a (h.kid (by simp [Expr.kids])), canonL_bare b (fun x hx => h.kid (by simp [Expr.kids, hx]))]
  | .caseOption q a b, h => by
    simp only [canon, bare, canon_bare b (h.kid (by simp [Expr.kids])), canonL_bare a (fun x hx => h.kid (by simp [Expr.kids, hx]))]
  | .collect q a b c, h => by
    simp only [canon, bare, canon_bare a (h.kid (by simp [Expr.kids])), canon_bare b (h.kid (by simp [Expr.kids])), canonL_bare c (fun x hx => h.kid (by simp [Expr.kids, hx]))]
  | .concat q a, h => by
    simp only [canon, bare, canonL_bare a (fun x hx => h.kid (by simp [Expr.kids, hx]))]
  | .epp q a b, h => by
    simp only [canon, bare, canon_bare b (h.kid (by simp [Expr.kids]))]
  | .heredoc q a b, h => by
    simp only [canon, bare, canon_bare b (h.kid (by simp [Expr.kids]))]
  | .ifE q a b c d, h => by
    simp only [canon, bare, canon_bare b (h.kid (by simp [Expr.kids])), canon_bare c (h.kid (by simp [Expr.kids])), canon_bare d (h.kid (by simp [Expr.kids]))]
    have := h.self
    congr 1
    cases d <;> first | (simp only [bare, elseBlock]; done) | exact absurd this (by simp [AsWritten])
  | .keyedEntry q a b, h => by
    simp only [canon, bare, canon_bare a (h.kid (by simp [Expr.kids])), canon_bare b (h.kid (by simp [Expr.kids]))]
  | .lambda q a b c, h => by
    simp only [canon, bare, canon_bare b (h.kid (by simp [Expr.kids])), canonL_bare a (fun x hx => h.kid (by simp [Expr.kids, hx])), canonO_bare c (fun x hx => h.kid (by subst hx; simp [Expr.kids]))]
  | .boolean q a, h => by
    simp only [canon, bare]
  | .dflt q, h => by
    simp only [canon, bare]
  | .float q a, h => by
    simp only [canon, bare]
  | .hash q a, h => by
    simp only [canon, bare, canonL_bare a (fun x hx => h.kid (by simp [Expr.kids, hx]))]
  | .integer q a b, h => by
    simp only [canon, bare]
  | .list q a, h => by
    simp only [canon, bare, canonL_bare a (fun x hx => h.kid (by simp [Expr.kids, hx]))]
  | .string q a, h => by
    simp only [canon, bare]
  | .undef q, h => by
    simp only [canon, bare]
  | .nop q, h => by
    simp only [canon, bare]
  | .namedDef q a b c d, h => by
    simp only [canon, bare, canon_bare d (h.kid (by simp [Expr.kids])), canonL_bare c (fun x hx => h.kid (by simp [Expr.kids, hx]))]
  | .function q a b c d e, h => by
    simp only [canon, bare, canon_bare d (h.kid (by simp [Expr.kids])), canonL_bare c (fun x hx => h.kid (by simp [Expr.kids, hx])), canonO_bare e (fun x hx => h.kid (by subst hx; simp [Expr.kids]))]
  | .node q a b c, h => by
    simp only [canon, bare, canon_bare c (h.kid (by simp [Expr.kids])), canonL_bare b (fun x hx => h.kid (by simp [Expr.kids, hx])), canonO_bare a (fun x hx => h.kid (by subst hx; simp [Expr.kids]))]
  | .parameter q a b c d, h => by
    simp only [canon, bare, canonO_bare b (fun x hx => h.kid (by subst hx; simp [Expr.kids])), canonO_bare c (fun x hx => h.kid (by subst hx; simp [Expr.kids]))]
  | .qname q a, h => by
    simp only [canon, bare]
  | .qref q a b, h => by
    simp only [canon, bare]
  | .regexp q a, h => by
    simp only [canon, bare]
  | .renderString q a, h => by
    simp only [canon, bare]
  | .reserved q a b, h => by
    simp only [canon, bare]
  | .resource q a b c, h => by
    simp only [canon, bare, canon_bare b (h.kid (by simp [Expr.kids])), canonL_bare c (fun x hx => h.kid (by simp [Expr.kids, hx]))]
  | .resourceBody q a b, h => by
    simp only [canon, bare, canon_bare a (h.kid (by simp [Expr.kids])), canonL_bare b (fun x hx => h.kid (by simp [Expr.kids, hx]))]
  | .resourceDefaults q a b c, h => by
    simp only [canon, bare, canon_bare b (h.kid (by simp [Expr.kids])), canonL_bare c (fun x hx => h.kid (by simp [Expr.kids, hx]))]
  | .resourceOverride q a b c, h => by
    simp only [canon, bare, canon_bare b (h.kid (by simp [Expr.kids])), canonL_bare c (fun x hx => h.kid (by simp [Expr.kids, hx]))]
  | .selector q a b, h => by
    simp only [canon, bare, canon_bare a (h.kid (by simp [Expr.kids])), canonL_bare b (fun x hx => h.kid (by simp [Expr.kids, hx]))]
  | .selectorEntry q a b, h => by
    simp only [canon, bare, canon_bare a (h.kid (by simp [Expr.kids])), canon_bare b (h.kid (by simp [Expr.kids]))]
  | .site q a, h => by
    simp only [canon, bare, canon_bare a (h.kid (by simp [Expr.kids]))]
  | .typeAlias q a b, h => by
    simp only [canon, bare, canon_bare b (h.kid (by simp [Expr.kids]))]
  | .typeDefinition q a b c, h => by
    simp only [canon, bare, canon_bare c (h.kid (by simp [Expr.kids]))]
  | .typeMapping q a b, h => by
    simp only [canon, bare, canon_bare a (h.kid (by simp [Expr.kids])), canon_bare b (h.kid (by simp [Expr.kids]))]
  | .step q a b c d, h => by
    simp only [canon, bare, canonO_bare c (fun x hx => h.kid (by subst hx; simp [Expr.kids])), canonO_bare d (fun x hx => h.kid (by subst hx; simp [Expr.kids]))]
  | .commaSep q a, h => absurd h.self (by simp [AsWritten])
  | .program q a b, h => absurd h.self (by simp [AsWritten])
theorem canonL_bare : ∀ es, (∀ x ∈ es, Plain x) → canonL es = bareL es
  | [], _ => by rw [canonL, bareL]
  | e :: es, h => by
    rw [canonL, bareL, canon_bare e (h _ (List.mem_cons_self ..)), canonL_bare es fun x hx => h x (List.mem_cons_of_mem _ hx)]
theorem canonO_bare : ∀ o, (∀ x, o = some x → Plain x) → canonO o = bareO o
  | none, _ => by rw [canonO, bareO]
  | some e, h => by rw [canonO, bareO, canon_bare e (h e rfl)]
end

end PP.Decode
