import Verif.Spec.Printed
import Verif.Props.NoPanic

/-! # The printed AST depends on `canon` only. -/
namespace PP.Decode
open PP.Spec PP.Props

def isProgram : Expr → Bool
  | .program .. => true
  | _ => false

/-- No program inside. -/
def NoProg (e : Expr) : Prop := ∀ x ∈ subexpressions e, isProgram x = false

theorem NoProg.kid {e k : Expr} (h : NoProg e) (hk : k ∈ e.kids) : NoProg k :=
  fun x hx => h x (mem_subexpressions_kid hk hx)

theorem NoProg.self {e : Expr} (h : NoProg e) : isProgram e = false := h e (List.mem_cons_self ..)

theorem canon_isNop {e : Expr} (h : NoProg e) : (canon e).isNop = e.isNop := by
  have := h.self
  cases e <;> first | rfl | (cases this; done) | (rw [canon]; rfl)

theorem canon_blockEntry {e : Expr} (h : NoProg e) (p : PN) : (canon e).blockEntry p = e.blockEntry p := by
  have := h.self
  cases e <;> first | rfl | (cases this; done) | (rw [canon]; rfl)

theorem canon_blockEntry' {e : Expr} (h : NoProg e) : (canon e).blockEntry = e.blockEntry := funext (canon_blockEntry h)

theorem canonL_isEmpty (es : List Expr) : (canonL es).isEmpty = es.isEmpty := by
  cases es <;> rw [canonL] <;> rfl

theorem elseBlock_isNop (e : Expr) : (elseBlock e).isNop = e.isNop := by
  cases e <;> first | rfl | (rw [elseBlock]; rfl)

theorem elseBlock_entry (e : Expr) : (elseBlock e).toPN.map (elseBlock e).blockEntry = e.toPN.map e.blockEntry := by
  cases e with
  | ifE p u c t e =>
    have : elseBlock (.ifE p u c t e) = .block z [.ifE p u c t e] := rfl
    rw [this, Expr.toPN]
    simp only [Expr.pnMap]
    cases (Expr.ifE p u c t e).toPN with
    | error => rfl
    | ok p => rfl
  | _ => rfl

mutual
theorem toPN_canon : ∀ e, NoProg e → (canon e).toPN = e.toPN
  | .access q a b, h => by
    simp only [canon, toPN_canon a (h.kid (by simp [Expr.kids])), pnMap_canon b (fun x hx => h.kid (by simp [Expr.kids, hx])), Expr.toPN]
  | .bin q a b c, h => by
    simp only [canon, toPN_canon b (h.kid (by simp [Expr.kids])), toPN_canon c (h.kid (by simp [Expr.kids])), Expr.toPN]
  | .un q a b, h => by
    have hb := h.kid (k := b) (by simp [Expr.kids])
    have ih := toPN_canon b hb
    cases a <;> simp only [canon, Expr.toPN, ih]
    have := hb.self
    cases b <;> first | (cases this; done) | (simp only [canon]; done)
  | .query q a b, h => by
    simp only [canon, toPN_canon b (h.kid (by simp [Expr.kids])), canon_isNop (h.kid (by simp [Expr.kids]) : NoProg b), Expr.toPN]
  | .attributeOp q a b c, h => by
    simp only [canon, toPN_canon c (h.kid (by simp [Expr.kids])), Expr.toPN]
  | .attributesOp q a, h => by
    simp only [canon, toPN_canon a (h.kid (by simp [Expr.kids])), Expr.toPN]
  | .block q a, h => by
    simp only [canon, pnMap_canon a (fun x hx => h.kid (by simp [Expr.kids, hx])), Expr.toPN]
  | .call q a b c d e, h => by
    cases a <;> simp only [canon, toPN_canon c (h.kid (by simp [Expr.kids])), pnMap_canon d (fun x hx => h.kid (by simp [Expr.kids, hx])), optEntry_canon _ e (fun x hx => h.kid (by subst hx; simp [Expr.kids])), Expr.toPN]
  | .capabilityMapping q a b c d, h => by
    simp only [canon, toPN_canon c (h.kid (by simp [Expr.kids])), pnMap_canon d (fun x hx => h.kid (by simp [Expr.kids, hx])), Expr.toPN]
  | .caseE q a b, h => by
    simp only [canon, toPN_canon a (h.kid (by simp [Expr.kids])), pnMap_canon b (fun x hx => h.kid (by simp [Expr.kids, hx])), Expr.toPN]
  | .caseOption q a b, h => by
    simp only [canon, toPN_canon b (h.kid (by simp [Expr.kids])), pnMap_canon a (fun x hx => h.kid (by simp [Expr.kids, hx])), canon_blockEntry' (h.kid (by simp [Expr.kids]) : NoProg b), Expr.toPN]
  | .collect q a b c, h => by
    simp only [canon, toPN_canon a (h.kid (by simp [Expr.kids])), toPN_canon b (h.kid (by simp [Expr.kids])), pnMap_canon c (fun x hx => h.kid (by simp [Expr.kids, hx])), canonL_isEmpty, Expr.toPN]
  | .concat q a, h => by
    simp only [canon, pnMap_canon a (fun x hx => h.kid (by simp [Expr.kids, hx])), Expr.toPN]
  | .epp q a b, h => by
    simp only [canon, toPN_canon b (h.kid (by simp [Expr.kids])), Expr.toPN]
  | .heredoc q a b, h => by
    simp only [canon, toPN_canon b (h.kid (by simp [Expr.kids])), Expr.toPN]
  | .ifE q a b c d, h => by
    have hb := h.kid (k := b) (by simp [Expr.kids])
    have hc := h.kid (k := c) (by simp [Expr.kids])
    have hd := h.kid (k := d) (by simp [Expr.kids])
    simp only [canon, Expr.toPN, toPN_canon b hb, toPN_canon c hc, canon_isNop hc, canon_blockEntry' hc, elseBlock_isNop, canon_isNop hd,
      elseBlock_entry, toPN_canon d hd, canon_blockEntry' hd]
  | .keyedEntry q a b, h => by
    simp only [canon, toPN_canon a (h.kid (by simp [Expr.kids])), toPN_canon b (h.kid (by simp [Expr.kids])), Expr.toPN]
  | .lambda q a b c, h => by
    simp only [canon, toPN_canon b (h.kid (by simp [Expr.kids])), paramsEntry_canon a (fun x hx => h.kid (by simp [Expr.kids, hx])), optEntry_canon _ c (fun x hx => h.kid (by subst hx; simp [Expr.kids])), canon_blockEntry' (h.kid (by simp [Expr.kids]) : NoProg b), Expr.toPN]
  | .boolean q a, h => by
    simp only [canon, Expr.toPN]
  | .dflt q, h => by
    simp only [canon, Expr.toPN]
  | .float q a, h => by
    simp only [canon, Expr.toPN]
  | .hash q a, h => by
    simp only [canon, pnMap_canon a (fun x hx => h.kid (by simp [Expr.kids, hx])), Expr.toPN]
  | .integer q a b, h => by simp only [canon, Expr.toPN]
  | .list q a, h => by
    simp only [canon, pnMap_canon a (fun x hx => h.kid (by simp [Expr.kids, hx])), Expr.toPN]
  | .string q a, h => by
    simp only [canon, Expr.toPN]
  | .undef q, h => by
    simp only [canon, Expr.toPN]
  | .nop q, h => by
    simp only [canon, Expr.toPN]
  | .namedDef q a b c d, h => by
    cases a <;> simp only [canon, toPN_canon d (h.kid (by simp [Expr.kids])), paramsEntry_canon c (fun x hx => h.kid (by simp [Expr.kids, hx])), canon_blockEntry' (h.kid (by simp [Expr.kids]) : NoProg d), Expr.toPN]
  | .function q a b c d e, h => by
    simp only [canon, toPN_canon d (h.kid (by simp [Expr.kids])), paramsEntry_canon c (fun x hx => h.kid (by simp [Expr.kids, hx])), optEntry_canon _ e (fun x hx => h.kid (by subst hx; simp [Expr.kids])), canon_blockEntry' (h.kid (by simp [Expr.kids]) : NoProg d), Expr.toPN]
  | .node q a b c, h => by
    simp only [canon, toPN_canon c (h.kid (by simp [Expr.kids])), pnMap_canon b (fun x hx => h.kid (by simp [Expr.kids, hx])), optEntry_canon _ a (fun x hx => h.kid (by subst hx; simp [Expr.kids])), canon_blockEntry' (h.kid (by simp [Expr.kids]) : NoProg c), Expr.toPN]
  | .parameter q a b c d, h => by
    simp only [canon, optEntry_canon _ b (fun x hx => h.kid (by subst hx; simp [Expr.kids])), optEntry_canon _ c (fun x hx => h.kid (by subst hx; simp [Expr.kids])), Expr.toPN]
  | .qname q a, h => by
    simp only [canon, Expr.toPN]
  | .qref q a b, h => by
    simp only [canon, Expr.toPN]
  | .regexp q a, h => by
    simp only [canon, Expr.toPN]
  | .renderString q a, h => by
    simp only [canon, Expr.toPN]
  | .reserved q a b, h => by
    simp only [canon, Expr.toPN]
  | .resource q a b c, h => by
    simp only [canon, toPN_canon b (h.kid (by simp [Expr.kids])), pnMap_canon c (fun x hx => h.kid (by simp [Expr.kids, hx])), Expr.toPN]
  | .resourceBody q a b, h => by
    simp only [canon, toPN_canon a (h.kid (by simp [Expr.kids])), pnMap_canon b (fun x hx => h.kid (by simp [Expr.kids, hx])), Expr.toPN]
  | .resourceDefaults q a b c, h => by
    simp only [canon, toPN_canon b (h.kid (by simp [Expr.kids])), pnMap_canon c (fun x hx => h.kid (by simp [Expr.kids, hx])), Expr.toPN]
  | .resourceOverride q a b c, h => by
    simp only [canon, toPN_canon b (h.kid (by simp [Expr.kids])), pnMap_canon c (fun x hx => h.kid (by simp [Expr.kids, hx])), Expr.toPN]
  | .selector q a b, h => by
    simp only [canon, toPN_canon a (h.kid (by simp [Expr.kids])), pnMap_canon b (fun x hx => h.kid (by simp [Expr.kids, hx])), Expr.toPN]
  | .selectorEntry q a b, h => by
    simp only [canon, toPN_canon a (h.kid (by simp [Expr.kids])), toPN_canon b (h.kid (by simp [Expr.kids])), Expr.toPN]
  | .site q a, h => by
    simp only [canon, toPN_canon a (h.kid (by simp [Expr.kids])), Expr.toPN]
  | .typeAlias q a b, h => by
    simp only [canon, toPN_canon b (h.kid (by simp [Expr.kids])), Expr.toPN]
  | .typeDefinition q a b c, h => by
    simp only [canon, toPN_canon c (h.kid (by simp [Expr.kids])), Expr.toPN]
  | .typeMapping q a b, h => by
    simp only [canon, toPN_canon a (h.kid (by simp [Expr.kids])), toPN_canon b (h.kid (by simp [Expr.kids])), Expr.toPN]
  | .step q a b c d, h => by
    simp only [canon, optEntry_canon _ c (fun x hx => h.kid (by subst hx; simp [Expr.kids])), optEntry_canon _ d (fun x hx => h.kid (by subst hx; simp [Expr.kids])), Expr.toPN]
  | .commaSep q a, h => by
    simp only [canon, pnMap_canon a (fun x hx => h.kid (by simp [Expr.kids, hx])), Expr.toPN]
  | .program q a b, h => absurd h.self (by simp [isProgram])
theorem pnMap_canon : ∀ es, (∀ x ∈ es, NoProg x) → Expr.pnMap (canonL es) = Expr.pnMap es
  | [], _ => by rw [canonL]
  | e :: es, h => by
    rw [canonL, Expr.pnMap, Expr.pnMap, toPN_canon e (h _ (List.mem_cons_self ..)), pnMap_canon es fun x hx => h x (List.mem_cons_of_mem _ hx)]
theorem optEntry_canon : ∀ n o, (∀ x, o = some x → NoProg x) → Expr.optEntry n (canonO o) = Expr.optEntry n o
  | _, none, _ => by rw [canonO]
  | n, some e, h => by rw [canonO, Expr.optEntry, Expr.optEntry, toPN_canon e (h e rfl)]
theorem paramEntry_canon : ∀ e, NoProg e → Expr.paramEntry (canon e) = Expr.paramEntry e
  | .parameter q a b c d, h => by
    rw [canon, Expr.paramEntry, Expr.paramEntry, optEntry_canon _ b (fun x hx => h.kid (by subst hx; simp [Expr.kids])),
      optEntry_canon _ c (fun x hx => h.kid (by subst hx; simp [Expr.kids]))]
  | .access _ _ _, _ => by simp only [canon, Expr.paramEntry]
  | .bin _ _ _ _, _ => by simp only [canon, Expr.paramEntry]
  | .un _ _ _, _ => by simp only [canon, Expr.paramEntry]
  | .query _ _ _, _ => by simp only [canon, Expr.paramEntry]
  | .attributeOp _ _ _ _, _ => by simp only [canon, Expr.paramEntry]
  | .attributesOp _ _, _ => by simp only [canon, Expr.paramEntry]
  | .block _ _, _ => by simp only [canon, Expr.paramEntry]
  | .call _ _ _ _ _ _, _ => by simp only [canon, Expr.paramEntry]
  | .capabilityMapping _ _ _ _ _, _ => by simp only [canon, Expr.paramEntry]
  | .caseE _ _ _, _ => by simp only [canon, Expr.paramEntry]
  | .caseOption _ _ _, _ => by simp only [canon, Expr.paramEntry]
  | .collect _ _ _ _, _ => by simp only [canon, Expr.paramEntry]
  | .concat _ _, _ => by simp only [canon, Expr.paramEntry]
  | .epp _ _ _, _ => by simp only [canon, Expr.paramEntry]
  | .heredoc _ _ _, _ => by simp only [canon, Expr.paramEntry]
  | .ifE _ _ _ _ _, _ => by simp only [canon, Expr.paramEntry]
  | .keyedEntry _ _ _, _ => by simp only [canon, Expr.paramEntry]
  | .lambda _ _ _ _, _ => by simp only [canon, Expr.paramEntry]
  | .boolean _ _, _ => by simp only [canon, Expr.paramEntry]
  | .dflt _, _ => by simp only [canon, Expr.paramEntry]
  | .float _ _, _ => by simp only [canon, Expr.paramEntry]
  | .hash _ _, _ => by simp only [canon, Expr.paramEntry]
  | .integer _ _ _, _ => by simp only [canon, Expr.paramEntry]
  | .list _ _, _ => by simp only [canon, Expr.paramEntry]
  | .string _ _, _ => by simp only [canon, Expr.paramEntry]
  | .undef _, _ => by simp only [canon, Expr.paramEntry]
  | .nop _, _ => by simp only [canon, Expr.paramEntry]
  | .namedDef _ _ _ _ _, _ => by simp only [canon, Expr.paramEntry]
  | .function _ _ _ _ _ _, _ => by simp only [canon, Expr.paramEntry]
  | .node _ _ _ _, _ => by simp only [canon, Expr.paramEntry]
  | .qname _ _, _ => by simp only [canon, Expr.paramEntry]
  | .qref _ _ _, _ => by simp only [canon, Expr.paramEntry]
  | .regexp _ _, _ => by simp only [canon, Expr.paramEntry]
  | .renderString _ _, _ => by simp only [canon, Expr.paramEntry]
  | .reserved _ _ _, _ => by simp only [canon, Expr.paramEntry]
  | .resource _ _ _ _, _ => by simp only [canon, Expr.paramEntry]
  | .resourceBody _ _ _, _ => by simp only [canon, Expr.paramEntry]
  | .resourceDefaults _ _ _ _, _ => by simp only [canon, Expr.paramEntry]
  | .resourceOverride _ _ _ _, _ => by simp only [canon, Expr.paramEntry]
  | .selector _ _ _, _ => by simp only [canon, Expr.paramEntry]
  | .selectorEntry _ _ _, _ => by simp only [canon, Expr.paramEntry]
  | .site _ _, _ => by simp only [canon, Expr.paramEntry]
  | .typeAlias _ _ _, _ => by simp only [canon, Expr.paramEntry]
  | .typeDefinition _ _ _ _, _ => by simp only [canon, Expr.paramEntry]
  | .typeMapping _ _ _, _ => by simp only [canon, Expr.paramEntry]
  | .step _ _ _ _ _, _ => by simp only [canon, Expr.paramEntry]
  | .commaSep _ _, _ => by simp only [canon, Expr.paramEntry]
  | .program q a b, h => absurd h.self (by simp [isProgram])
theorem paramEntries_canon : ∀ es, (∀ x ∈ es, NoProg x) → Expr.paramEntries (canonL es) = Expr.paramEntries es
  | [], _ => by rw [canonL]
  | e :: es, h => by
    rw [canonL, Expr.paramEntries, Expr.paramEntries, paramEntry_canon e (h _ (List.mem_cons_self ..)),
      paramEntries_canon es fun x hx => h x (List.mem_cons_of_mem _ hx)]
theorem paramsEntry_canon : ∀ es, (∀ x ∈ es, NoProg x) → Expr.paramsEntry (canonL es) = Expr.paramsEntry es
  | [], _ => by rw [canonL]
  | e :: es, h => by
    rw [canonL, Expr.paramsEntry, Expr.paramsEntry, paramEntry_canon e (h _ (List.mem_cons_self ..)),
      paramEntries_canon es fun x hx => h x (List.mem_cons_of_mem _ hx)]
end

end PP.Decode
