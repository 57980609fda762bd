import Verif.Lemmas.Text6
import Verif.Props.Ranges
import Verif.Props.Seen

/-!
# C62: the strings in a parse result are UTF-8

Whatever the text: if `Parse` succeeds and hexadecimal escapes are not enabled, then every name, operator and string in the
tree is a sequence of encoded code points - no escape, heredoc, template or broken character can give anything else.
-/
namespace PP.Props
open PP.Vt

theorem utf8Tree_of_txt {e : Expr} (h : Txt e) : Utf8Tree e := by
  induction h with
  | @mk e h1 _ ih =>
    intro x hx
    rcases mem_subexpressions_kids hx with rfl | ⟨k, hk, hx⟩
    · exact h1
    · exact ih k hk x hx

theorem txt_of_utf8Tree : (e : Expr) → Utf8Tree e → Txt e
  | e, h => .mk (h e (by unfold subexpressions; exact List.mem_cons_self ..)) fun k hk => txt_of_utf8Tree k fun x hx => h x (mem_subexpressions_kid hk hx)
termination_by e => sizeOf e
decreasing_by exact Expr.sizeOf_kid hk

/-- A parser whose last token and name stack are UTF-8: a new one, and one that was used. -/
structure Utf8State (s : St) : Prop where
  names : ∀ n ∈ s.names, ValidUtf8 n
  text : ∀ w, s.val = .str w → ValidUtf8 w
  expr : ∀ e, s.val = .expr e → Utf8Tree e
  float : ∀ v, s.val = .flt v → ValidUtf8 v.text

theorem utf8State_new : Utf8State {} := ⟨(fun _ h => nomatch h), (fun _ h => nomatch h), (fun _ h => nomatch h), (fun _ h => nomatch h)⟩

/-- What is assumed: no hexadecimal escapes, and `fmt` prints a float in UTF-8. -/
structure PlainText (env : Env) : Prop where
  noHex : env.hexEsc = false
  floats : ∀ v, ValidUtf8 v.text → ValidUtf8 (env.fmtFloat v)

theorem parseFrom_txt {env : Env} {s t : St} {single : Bool} {e : Expr} (hx : PlainText env) (hs : Utf8State s)
    (h : parseFrom env s single = (.value e, t)) : I t ∧ Txt e ∧ (single = false → ∀ d ∈ listed e, Txt d) := by
  unfold parseFrom at h
  split at h
  · rename_i hp
    cases h
    refine parseProgram_txt (run_HS hx.noHex hx.floats _) ?_ hs.names hp
    unfold VOK
    split
    · exact hs.text _ ‹_›
    · exact txt_of_utf8Tree _ (hs.expr _ ‹_›)
    · exact hs.float _ ‹_›
    · trivial
  all_goals cases h

/-- C62: every string of the result is UTF-8, also in the definitions that a program lists. -/
theorem C62_utf8 {env : Env} {s t : St} {single : Bool} {e : Expr} (hx : PlainText env) (hs : Utf8State s)
    (h : parseFrom env s single = (.value e, t)) :
    Utf8Tree e ∧ (single = false → ∀ d ∈ listed e, Utf8Tree d) := by
  obtain ⟨_, h1, h2⟩ := parseFrom_txt hx hs h
  exact ⟨utf8Tree_of_txt h1, fun hb d hd => utf8Tree_of_txt (h2 hb d hd)⟩

/-- C62: and the parser can be used again. -/
theorem C62_again {env : Env} {s t : St} {single : Bool} {e : Expr} (hx : PlainText env) (hs : Utf8State s)
    (h : parseFrom env s single = (.value e, t)) : Utf8State t := by
  obtain ⟨h1, _⟩ := parseFrom_txt hx hs h
  have hv := h1.val
  refine ⟨h1.names, fun w hw => ?_, fun e he => ?_, fun v h => ?_⟩
  · rw [hw] at hv; exact hv
  · rw [he] at hv; exact utf8Tree_of_txt hv
  · rw [h] at hv; exact hv

/-- C62 for a new parser. -/
theorem C62_new {env : Env} {single : Bool} {e : Expr} (hx : PlainText env) (h : parse env single = .value e) : Utf8Tree e :=
  (C62_utf8 hx utf8State_new (t := (parseFrom env {} single).2) (Prod.ext h rfl)).1

/-- The environments of the examples are as assumed. -/
theorem plainText_default (text : GoStr) (epp workflow tasks : Bool) : PlainText { text, epp, workflow, tasks } := ⟨rfl, fun _ h => h⟩

/-- A byte that begins no character. -/
theorem not_utf8_ff : ¬ ValidUtf8 [0xFF] := by
  rintro ⟨rs, h1, h2⟩
  cases rs with
  | nil => simp at h2
  | cons r rs =>
    rw [utf8_cons] at h2
    have hd : decodeRune [0xFF] = (r, (encodeRune r).length) := by
      rw [h2]
      exact decode_encode _ _ (h1 r (List.mem_cons_self ..))
    have he : decodeRune [0xFF] = (0xFFFD, 1) := by decide +kernel
    rw [he] at hd
    injection hd with h3 h4
    subst h3
    exact absurd h4 (by decide +kernel)

/-- The single string of a result, if it is one. -/
def theString : Outcome → Option GoStr
  | .value (.block _ [.string _ w]) => some w
  | .value (.string _ w) => some w
  | _ => none

/-- F62: with hexadecimal escapes the claim is false. -/
theorem C62_hex_escape : ∃ env e, env.text = b!"\"\\xff\"" ∧ parse env true = .value e ∧ ¬ Utf8Tree e := by
  have h : theString (parse { text := b!"\"\\xff\"", hexEsc := true } true) = some [0xFF] := by decide +kernel
  generalize hp : parse { text := b!"\"\\xff\"", hexEsc := true } true = o at h
  unfold theString at h
  split at h
  · injection h with h; subst h
    exact ⟨_, _, rfl, hp, fun h => not_utf8_ff (h (.string ‹Pos› [0xFF]) (mem_subexpressions_kid (k := .string ‹Pos› [0xFF]) (by simp [Expr.kids]) (by unfold subexpressions; exact List.mem_cons_self ..)) _ (List.mem_cons_self ..))⟩
  · injection h with h; subst h
    exact ⟨_, _, rfl, hp, fun h => not_utf8_ff (h _ (by unfold subexpressions; exact List.mem_cons_self ..) _ (List.mem_cons_self ..))⟩
  · cases h

/-- Escapes, a heredoc, text in a template and a name, each with characters of several bytes. -/
example : see (b!"\"" ++ utf8 [0xE9] ++ b!"\\u{1F600}\\u00e9\"") = .ast (b!"(block \"" ++ utf8 [0xE9, 0x1F600, 0xE9] ++ b!"\")") ∧
    see (b!"@(" ++ utf8 [0xE9] ++ b!")\n" ++ utf8 [0x4E2D] ++ b!"\n| " ++ utf8 [0xE9] ++ b!"\n") =
      .ast (b!"(block (heredoc {:text \"" ++ utf8 [0x4E2D] ++ b!"\\n\"}))") ∧
    seeEpp (utf8 [0x4E2D] ++ b!"<%= 1 %>") = .ast (b!"(lambda {:body [(epp (render-s \"" ++ utf8 [0x4E2D] ++ b!"\") (render 1))]})") ∧
    see (b!"'" ++ utf8 [0x1F600] ++ b!"'") = .ast (b!"(block \"" ++ utf8 [0x1F600] ++ b!"\")") := by
  decide +kernel

/-- The hypotheses of C62 at work. -/
example : (parse { text := b!"\"a${1.5}\"" } false matches .value _) = true := by decide +kernel
example (e : Expr) (h : parse { text := b!"\"a${1.5}\"" } false = .value e) : Utf8Tree e := C62_new (plainText_default _ false false false) h

/-- A surrogate in an escape becomes the replacement character. -/
example : see b!"\"\\ud800\"" = .ast (b!"(block \"" ++ utf8 [0xFFFD] ++ b!"\")") := by
  decide +kernel

end PP.Props
