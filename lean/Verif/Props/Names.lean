import Verif.Lemmas.Qual6
import Verif.Props.History
import Verif.Props.Ranges

/-!
# Names of nested definitions: C33

`Named` (in `Spec/Names.lean`) says which names the definitions in a tree bear.
-/
namespace PP.Props
open PP PP.Expr

theorem parseFrom_program {env : Env} {s t : St} {single : Bool} {e : Expr} (h : parseFrom env s single = (.value e, t)) :
    parseProgram (run (parseFuel env.text)) single env s = .ok e t := by
  unfold parseFrom at h
  split at h <;> cases h
  assumption

theorem calls_ready {cs : List (Env × Bool)} {s : St} (hc : Calls {} cs s) :
    s.names = [] ∧ ∀ x, s.val = .expr x → Qu.Any x := by
  have h0 : ({} : St).names = [] ∧ ∀ x, ({} : St).val = .expr x → Qu.Any x := ⟨rfl, fun x h => nomatch h⟩
  revert h0
  generalize ({} : St) = r at hc
  intro h0
  induction hc with
  | none => exact h0
  | call _ h1 ih =>
    obtain ⟨-, h2, h3, -⟩ := Qu.parseProgram_named (Qu.run_HS _) ih.2 (parseFrom_program h1) rfl
    exact ⟨h2.trans ih.1, h3⟩

/-- C33: in every tree that `Parse` returns, on a new parser or one that was used before, what is declared is named after the
constructs around it; and the parser remembers none of them. -/
theorem C33_names {cs : List (Env × Bool)} {s t : St} (hc : Calls {} cs s) {env : Env} {single : Bool} {e : Expr}
    (h : parseFrom env s single = (.value e, t)) : Named [] e ∧ t.names = [] := by
  obtain ⟨h1, h2⟩ := calls_ready hc
  obtain ⟨h3, h4, -⟩ := Qu.parseProgram_named (Qu.run_HS _) h2 (parseFrom_program h) rfl
  rw [h1] at h3 h4
  exact ⟨h3, h4⟩

/-- C33: the definitions that a program lists, too, are named after names that were around them. -/
theorem C33_listed_names {cs : List (Env × Bool)} {s t : St} (hc : Calls {} cs s) {env : Env} {p : Pos} {b : Expr} {ds : List Expr}
    (h : parseFrom env s false = (.value (.program p b ds), t)) : ∀ d ∈ ds, ∃ ns, Named ns d := by
  obtain ⟨h1, h2⟩ := calls_ready hc
  obtain ⟨-, -, -, h5⟩ := Qu.parseProgram_named (Qu.run_HS _) h2 (parseFrom_program h) rfl
  have h6 := parseFrom_spec env s false
  rw [h] at h6
  obtain ⟨h6, h7⟩ := h6
  rw [if_neg (by decide)] at h7
  obtain ⟨b', h8, -⟩ := h7
  cases h8
  intro d hd
  obtain ⟨ns, -, h⟩ := h5 d hd
  exact ⟨ns, h⟩

theorem Named.kid {ns : List GoStr} {e k : Expr} (h : Named ns e) (hk : k ∈ e.kids) : ∃ ms, Named ms k := by
  cases h with
  | hostClass h1 h2 =>
    rcases List.mem_append.1 hk with hk | hk
    · exact ⟨_, h1 k hk⟩
    · exact ⟨_, List.mem_singleton.1 hk ▸ h2⟩
  | plan h1 h2 h3 =>
    rcases List.mem_append.1 hk with hk | hk
    · rcases List.mem_append.1 hk with hk | hk
      · exact ⟨_, h1 k hk⟩
      · exact ⟨_, h2 k (by simpa using hk)⟩
    · exact ⟨_, List.mem_singleton.1 hk ▸ h3⟩
  | workflow h1 h2 =>
    rcases List.mem_append.1 hk with hk | hk
    · exact ⟨_, h1 k (by simpa using hk)⟩
    · exact ⟨_, h2 k (by simpa using hk)⟩
  | step _ h1 h2 =>
    rcases List.mem_append.1 hk with hk | hk
    · exact ⟨_, h1 k (by simpa using hk)⟩
    · exact ⟨_, h2 k (by simpa using hk)⟩
  | mapping h1 h2 =>
    rcases List.mem_cons.1 hk with rfl | hk
    · exact ⟨_, h1⟩
    · exact ⟨_, h2 k hk⟩
  | interpolation h => exact ⟨_, List.mem_singleton.1 hk ▸ h⟩
  | other _ h => exact ⟨_, h k hk⟩

theorem Named.sub {ns : List GoStr} {e x : Expr} (h : Named ns e) (hx : x ∈ subexpressions e) : ∃ ms, Named ms x := by
  induction hn : sizeOf e using Nat.strongRecOn generalizing e ns with
  | _ n ih =>
    rcases mem_subexpressions_kids hx with rfl | ⟨k, hk, hx⟩
    · exact ⟨ns, h⟩
    · obtain ⟨ms, h'⟩ := h.kid hk
      exact ih _ (hn ▸ sizeOf_kid hk) h' hx rfl

/-- `x` is in `e`, and no class, plan, workflow, step, mapping or string is between them. -/
inductive Directly : Expr → Expr → Prop
  | here (e) : Directly e e
  | kid {e k x} : qualifies e = false → k ∈ e.kids → Directly k x → Directly e x

theorem Named.directly {ns : List GoStr} {e x : Expr} (h : Named ns e) (hx : Directly e x) : Named ns x := by
  induction hx with
  | here => exact h
  | kid hq hk _ ih => exact ih (h.kids hq _ hk)

theorem qualified_snoc (ns : List GoStr) (m n : GoStr) : qualified (ns ++ [m] ++ [n]) = qualified (ns ++ [m]) ++ b!"::" ++ n := by
  induction ns with
  | nil => simp [qualified]
  | cons a ns ih =>
    cases ns with
    | nil => simp [qualified]
    | cons b ns =>
      simp only [List.cons_append, qualified] at ih ⊢
      rw [ih]
      simp

/-- C33: the name of a class that is directly in another class is the name of that class, `::` and a name. -/
theorem C33_classes_in_classes {cs : List (Env × Bool)} {s t : St} (hc : Calls {} cs s) {env : Env} {single : Bool} {e : Expr}
    (h : parseFrom env s single = (.value e, t)) {p q : Pos} {parent parent' name name' : GoStr} {ps ps' : List Expr} {b b' : Expr}
    (h1 : .namedDef p (.hostClass parent) name ps b ∈ subexpressions e)
    (h2 : Directly b (.namedDef q (.hostClass parent') name' ps' b')) : ∃ n, name' = name ++ b!"::" ++ n := by
  obtain ⟨ms, h3⟩ := (C33_names hc h).1.sub h1
  cases h3 with
  | hostClass _ h4 =>
    have h5 := h4.directly h2
    generalize hl : (ms ++ [_] : List GoStr) = l at h5
    cases h5 with
    | hostClass => subst hl; exact ⟨_, qualified_snoc _ _ _⟩
    | other hq => cases hq
  | other hq => cases hq

/-- C33: a class in no other construct keeps the name it was written with, also after other classes: here `c`. -/
theorem C33_example :
    see b!"class a { if $x { class b { } } class b2 { class b3 { } } }\nclass c { }" = .ast
      (b!"(block (class {:name \"a\" :body [(if {:test (var \"x\") :then [(class {:name \"a::b\" :body []})]}) " ++
       b!"(class {:name \"a::b2\" :body [(class {:name \"a::b2::b3\" :body []})]})]}) (class {:name \"c\" :body []}))") := by
  decide +kernel

/-- C33 would be wrong without the exception for strings: the token after a class is read before its name is forgotten, so that a
class declared in an interpolated string that follows a class is named as if it were in it. -/
theorem C33_violated_in_string :
    see b!"class a { } \"${class b { }}\"" = .ast
      b!"(block (class {:name \"a\" :body []}) (concat (str (class {:name \"a::b\" :body []}))))" := by
  decide +kernel

end PP.Props
