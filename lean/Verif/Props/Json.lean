import Verif.Lemmas.Json2
import Verif.Props.Cli

/-!
# C60: the JSON output

The reader of Spec/Json.lean is independent of the encoder.  The printing of floats by encoding/json and the texts of the
issue library are parameters.
-/
namespace PP.Props

theorem blanks_stop {blanks : GoStr} (hb : ∀ b ∈ blanks, jsonBlank b = true) : Stops blanks := by
  rintro b t rfl
  have h := hb b (List.mem_cons_self ..)
  simp only [jsonBlank, Bool.or_eq_true, beq_iff_eq] at h
  rcases h with ((rfl | rfl) | rfl) | rfl <;> decide

theorem skip_blanks {blanks : GoStr} (hb : ∀ b ∈ blanks, jsonBlank b = true) : skipBlank blanks = [] :=
  (takeWhile_all hb).2

theorem read_good {t : GoStr} {j : Json} (h : ReadAs t j) {blanks : GoStr} (hb : ∀ b ∈ blanks, jsonBlank b = true) :
    readJson (t ++ blanks) = some j := by
  unfold readJson
  rw [h.read _ blanks (by rw [List.length_append]; omega) (blanks_stop hb)]
  simp [skip_blanks hb]

/-- C60: the JSON text of any PN is one JSON value: for a call `{"^": [name, arguments...]}`, for a map `{"#": [key, value,
...]}`, for a list an array, with the same strings, integers, booleans and nulls in the same order, whatever bytes the
strings contain.  White space after it, as the tool adds, is ignored. -/
theorem C60_pn_roundtrip (jf : FloatVal → Option GoStr) (hf : ∀ f t, jf f = some t → jsonNumber t = true)
    (p : PN) (t : GoStr) (h : p.toData.json jf = some t) (blanks : GoStr) (hb : ∀ b ∈ blanks, jsonBlank b = true) :
    readJson (t ++ blanks) = some (p.asJson (printed jf)) :=
  read_good (good_pn hf p h) hb

/-- C60: there is such a text unless the PN contains a float that JSON cannot express. -/
theorem C60_pn_fails_iff (jf : FloatVal → Option GoStr) (p : PN) :
    p.toData.json jf = none ↔ ∃ f ∈ p.floats, jf f = none := by
  have h := json_some_iff (jf := jf) p
  cases hp : p.toData.json jf with
  | none =>
    simp only [hp, Option.isSome_none, Bool.false_eq_true, false_iff, true_iff] at h ⊢
    apply Classical.byContradiction
    intro hn
    apply h
    intro f hf
    cases hj : jf f with
    | none => exact absurd ⟨f, hf, hj⟩ hn
    | some _ => rfl
  | some t =>
    simp only [hp, Option.isSome_some, true_iff] at h
    simp only [reduceCtorEq, false_iff, not_exists, not_and]
    intro f hf hj
    have := h f hf
    rw [hj] at this
    cases this

mutual
theorem asJson_injective {num : FloatVal → GoStr} : ∀ (p q : PN), p.simple → q.simple → p.asJson num = q.asJson num → p = q
  | .lit v, q, hp, hq, h => by
    cases v with
    | float f => exact hp.elim
    | nil =>
      cases q with
      | lit w =>
        cases w with
        | nil => rfl
        | _ => simp [PN.asJson] at h
      | _ => simp [PN.asJson] at h
    | str s =>
      cases q with
      | lit w =>
        cases w with
        | str s' =>
          simp only [PN.asJson, Json.str.injEq] at h
          simp only [PN.simple] at hp hq
          rw [hp, hq] at h
          rw [h]
        | _ => simp [PN.asJson] at h
      | _ => simp [PN.asJson] at h
    | int i =>
      cases q with
      | lit w =>
        cases w with
        | int j =>
          simp only [PN.asJson, Json.num.injEq] at h
          rw [intToDec_injective h]
        | float f => exact hq.elim
        | _ => simp [PN.asJson] at h
      | _ => simp [PN.asJson] at h
    | bool b =>
      cases q with
      | lit w =>
        cases w with
        | bool b' =>
          simp only [PN.asJson, Json.bool.injEq] at h
          rw [h]
        | _ => simp [PN.asJson] at h
      | _ => simp [PN.asJson] at h
  | .list es, q, hp, hq, h => by
    cases q with
    | list es' =>
      simp only [PN.asJson, Json.arr.injEq] at h
      rw [asJsonList_injective es es' hp hq h]
    | lit w => cases w <;> simp [PN.asJson] at h
    | _ => simp [PN.asJson] at h
  | .map es, q, hp, hq, h => by
    cases q with
    | map es' =>
      simp only [PN.asJson, Json.obj.injEq, List.cons.injEq, Prod.mk.injEq, Json.arr.injEq, and_true, true_and] at h
      rw [asJsonEntries_injective es es' hp hq h]
    | lit w => cases w <;> simp [PN.asJson] at h
    | _ => simp [PN.asJson] at h
  | .call n es, q, hp, hq, h => by
    cases q with
    | call n' es' =>
      simp only [PN.asJson, Json.obj.injEq, List.cons.injEq, Prod.mk.injEq, Json.arr.injEq, Json.str.injEq, and_true, true_and] at h
      rw [PN.simple] at hp hq
      rw [hp.1, hq.1] at h
      rw [asJsonList_injective es es' hp.2 hq.2 h.2, h.1]
    | lit w => cases w <;> simp [PN.asJson] at h
    | _ => simp [PN.asJson] at h
theorem asJsonList_injective {num : FloatVal → GoStr} : ∀ (p q : List PN), PN.simpleList p → PN.simpleList q →
    PN.asJsonList num p = PN.asJsonList num q → p = q
  | [], [], _, _, _ => rfl
  | [], _ :: _, _, _, h => by simp [PN.asJsonList] at h
  | _ :: _, [], _, _, h => by simp [PN.asJsonList] at h
  | p :: ps, q :: qs, hp, hq, h => by
    simp only [PN.asJsonList, List.cons.injEq] at h
    rw [PN.simpleList] at hp hq
    rw [asJson_injective p q hp.1 hq.1 h.1, asJsonList_injective ps qs hp.2 hq.2 h.2]
theorem asJsonEntries_injective {num : FloatVal → GoStr} : ∀ (p q : List (GoStr × PN)), PN.simpleEntries p →
    PN.simpleEntries q → PN.asJsonEntries num p = PN.asJsonEntries num q → p = q
  | [], [], _, _, _ => rfl
  | [], (_, _) :: _, _, _, h => by simp [PN.asJsonEntries] at h
  | (_, _) :: _, [], _, _, h => by simp [PN.asJsonEntries] at h
  | (k, p) :: ps, (k', q) :: qs, hp, hq, h => by
    simp only [PN.asJsonEntries, List.cons.injEq, Json.str.injEq] at h
    rw [PN.simpleEntries] at hp hq
    rw [hp.1, hq.1] at h
    rw [h.1, asJson_injective p q hp.2.1 hq.2.1 h.2.1, asJsonEntries_injective ps qs hp.2.2 hq.2.2 h.2.2]
end

/-- C60: nothing is lost, apart from floats and from bytes that are not UTF-8: two PNs with the same JSON text are equal. -/
theorem C60_pn_lossless (jf : FloatVal → Option GoStr) (hf : ∀ f t, jf f = some t → jsonNumber t = true)
    (p q : PN) (t : GoStr) (hp : p.simple) (hq : q.simple) (h1 : p.toData.json jf = some t)
    (h2 : q.toData.json jf = some t) : p = q := by
  have r1 := C60_pn_roundtrip jf hf p t h1 [] (by simp)
  rw [C60_pn_roundtrip jf hf q t h2 [] (by simp)] at r1
  injection r1 with r1
  exact (asJson_injective q p hq hp r1).symm

/-- The issues of a run, as they should be in its output. -/
def shownIssues (t : Texts) (is : List Issue) : List Json :=
  is.map fun i => issueJson i.code.name (shown (t.severity i.severity)) (shown (t.issue i))

/-- What the tool should write with `-j`: the issue of a syntax error alone; or the message of another error alone; or the
AST, if it is printed, and the issues, if there are any. -/
def report (t : Texts) (o : CliOut) : List (GoStr × Json) :=
  match o.error with
  | some (.issue c p) =>
    [(b!"issues", .arr [issueJson c.name (shown (t.severity .error)) (shown (t.parseError c p))])]
  | some e => [(b!"error", .str (shown (t.readError e)))]
  | none =>
    (match o.ast with
      | some p => [(b!"ast", p.asJson (printed t.float))]
      | none => []) ++
    (if o.issues = [] then [] else [(b!"issues", .arr (shownIssues t o.issues))])

theorem code_shown (c : Code) : shown c.name = c.name := by cases c <;> decide
theorem vcode_shown (c : VCode) : shown c.name = c.name := by cases c <;> decide

theorem good_reported {jf : FloatVal → Option GoStr} {c s m : GoStr} (hc : shown c = c) :
    ∃ t, (reportedPN c s m).toData.json jf = some t ∧ ReadAs t (issueJson c (shown s) (shown m)) := by
  have h : ((reportedPN c s m).toData.json (fun _ => none)).isSome = true := by
    rw [json_some_iff]
    intro f hf
    simp [reportedPN, PN.floats, PN.floatsEntries] at hf
  have e : (reportedPN c s m).toData.json jf = (reportedPN c s m).toData.json (fun _ => none) := rfl
  rw [e]
  obtain ⟨t, ht⟩ := Option.isSome_iff_exists.1 h
  refine ⟨t, ht, ?_⟩
  have := good_pn (jf := fun _ => none) (by simp) _ ht
  simp only [reportedPN, PN.asJson, PN.asJsonEntries, hc, show shown b!"code" = b!"code" by decide,
    show shown b!"severity" = b!"severity" by decide, show shown b!"message" = b!"message" by decide] at this
  exact this

theorem good_issues {jf : FloatVal → Option GoStr} (t : Texts) (is : List Issue) :
    ∃ ts, Data.jsonList jf (is.map fun i => (reportedPN i.code.name (t.severity i.severity) (t.issue i)).toData) = some ts ∧
      AllReadAs ts (shownIssues t is) := by
  induction is with
  | nil => exact ⟨[], rfl, .nil⟩
  | cons i is ih =>
    obtain ⟨ts, h1, h2⟩ := ih
    obtain ⟨u, h3, h4⟩ := good_reported (jf := jf) (s := t.severity i.severity) (m := t.issue i) (vcode_shown i.code)
    refine ⟨u :: ts, ?_, .cons h4 h2⟩
    rw [List.map_cons, Data.jsonList, h1, h3]

theorem shown_ast : shown b!"ast" = b!"ast" := by decide
theorem shown_issues : shown b!"issues" = b!"issues" := by decide
theorem shown_error : shown b!"error" = b!"error" := by decide

theorem sort_two (a b : GoStr) : sortKeys [(b!"issues", a), (b!"ast", b)] = [(b!"ast", b), (b!"issues", a)] := by
  simp only [sortKeys, insertKey]
  rw [if_neg (by decide)]

theorem good_result (t : Texts) (ht : ∀ f s, t.float f = some s → jsonNumber s = true) (o : CliOut)
    (he : o.error = none ∨ o.ast = none) :
    (∃ s, (Data.dict (o.result t)).json t.float = some s ∧ ReadAs s (.obj (report t o))) ∨
    ((Data.dict (o.result t)).json t.float = none ∧ ∃ p, o.ast = some p ∧ p.toData.json t.float = none) := by
  obtain ⟨ex_, ast, error, issues⟩ := o
  simp only at he
  cases error with
  | some e =>
    left
    cases e with
    | issue c p =>
      obtain ⟨u, h3, h4⟩ := good_reported (jf := t.float) (s := t.severity .error) (m := t.parseError c p) (code_shown c)
      refine ⟨_, ?_, good_obj (.cons (k := b!"issues") (good_arr (.cons h4 .nil)) .nil) |> (shown_issues ▸ ·)⟩
      simp only [CliOut.result, Data.json, Data.jsonEntries, Data.jsonList, h3, Option.map_some]
      rfl
    | _ =>
      refine ⟨_, ?_, good_obj (.cons (k := b!"error") (good_string (t.readError _)) .nil) |> (shown_error ▸ ·)⟩
      simp only [CliOut.result, Data.json, Data.jsonEntries, Lit.json, Option.map_some]
      rfl
  | none =>
    obtain ⟨ts, h1, h2⟩ := good_issues (jf := t.float) t issues
    cases ast with
    | none =>
      left
      cases issues with
      | nil => exact ⟨_, rfl, good_obj .nil⟩
      | cons i is =>
        refine ⟨_, ?_, good_obj (.cons (k := b!"issues") (good_arr h2) .nil) |> (shown_issues ▸ ·)⟩
        simp only [CliOut.result, List.isEmpty_cons, Bool.false_eq_true, if_false, List.append_nil, Data.json,
          Data.jsonEntries, h1, Option.map_some]
        rfl
    | some p =>
      cases hp : p.toData.json t.float with
      | none =>
        right
        refine ⟨?_, p, rfl, hp⟩
        cases issues with
        | nil => simp [CliOut.result, Data.json, Data.jsonEntries, hp]
        | cons i is => simp [CliOut.result, Data.json, Data.jsonEntries, hp]
      | some s =>
        left
        have hg := good_pn ht p hp
        cases issues with
        | nil =>
          refine ⟨_, ?_, good_obj (.cons (k := b!"ast") hg .nil) |> (shown_ast ▸ ·)⟩
          simp only [CliOut.result, List.isEmpty_nil, if_true, List.nil_append, Data.json, Data.jsonEntries, hp,
            Option.map_some]
          rfl
        | cons i is =>
          have := good_obj (.cons (k := b!"ast") hg (.cons (k := b!"issues") (good_arr h2) .nil))
          rw [shown_ast, shown_issues] at this
          refine ⟨_, ?_, this⟩
          simp only [CliOut.result, List.isEmpty_cons, Bool.false_eq_true, if_false, List.cons_append, List.nil_append,
            Data.json, Data.jsonEntries, hp, h1, Option.map_some, sort_two]

theorem error_or_ast {a : CliArgs} {out : CliOut} (h : cliMain a = .ok out) : out.error = none ∨ out.ast = none := by
  unfold cliMain at h
  split at h
  · cases h
  · split at h
    · cases h
    · cases h
    · rename_i code pos hp
      cases hd : describe a.content pos <;> simp [hd, bind, Except.bind, pure, Except.pure] at h
      subst h
      exact .inr rfl
    · cases h
      exact .inr rfl
    · simp only at h
      split at h
      · cases h
      · rename_i is hv
        cases hd : describeAll a.content is <;> simp [hd, bind, Except.bind, pure, Except.pure] at h
        split at h
        · cases h; exact .inl rfl
        · split at h
          · cases h; exact .inl rfl
          · split at h
            · cases h
            · cases h; exact .inl rfl

/-- C60: with `-j` the tool ends with the same status as without, and what it writes to standard output is one JSON object
with exactly the members that `report` tells. -/
theorem C60_output (t : Texts) (ht : ∀ f s, t.float f = some s → jsonNumber s = true) (a : CliArgs) (status : Nat)
    (text : GoStr) (h : cliJson t a = .ok (status, text)) :
    ∃ out, cliMain a = .ok out ∧ status = out.exit ∧ readJson text = some (.obj (report t out)) := by
  unfold cliJson at h
  split at h
  · cases h
  · rename_i o ho
    refine ⟨o, ho, ?_⟩
    rcases good_result t ht o (error_or_ast ho) with ⟨s, hs, hg⟩ | ⟨hs, -⟩
    · rw [hs] at h
      injection h with h
      injection h with h1 h2
      refine ⟨h1.symm, ?_⟩
      rw [← h2]
      exact read_good hg (by decide)
    · rw [hs] at h
      cases h

/-- C60: with `-j` the tool panics where it panics without, and also when the AST that it would print contains a float that
JSON cannot express. -/
theorem C60_panics_iff (t : Texts) (ht : ∀ f s, t.float f = some s → jsonNumber s = true) (a : CliArgs) :
    (∀ p, cliJson t a = .error (some p) ↔ cliMain a = .error p) ∧
    (cliJson t a = .error none ↔ ∃ out p, cliMain a = .ok out ∧ out.ast = some p ∧ ∃ f ∈ p.floats, t.float f = none) := by
  unfold cliJson
  cases hm : cliMain a with
  | error k =>
    constructor
    · intro p
      simp
    · simp
  | ok o =>
    simp only [reduceCtorEq, Except.ok.injEq, exists_and_left, exists_eq_left', iff_false]
    rcases good_result t ht o (error_or_ast hm) with ⟨s, hs, hg⟩ | ⟨hs, p, hp, hpf⟩
    · rw [hs]
      simp only [reduceCtorEq, not_false_eq_true, implies_true, false_iff, not_exists, not_and, true_and]
      intro p hp f hf hff
      have hn : p.toData.json t.float = none := (C60_pn_fails_iff t.float p).2 ⟨f, hf, hff⟩
      have hr : (Data.dict (o.result t)).json t.float = none := by
        have he := (error_or_ast hm).resolve_right (by rw [hp]; simp)
        obtain ⟨ts, h1, -⟩ := good_issues (jf := t.float) t o.issues
        unfold CliOut.result
        rw [he, hp]
        simp only
        split <;> simp [Data.json, Data.jsonEntries, hn]
      rw [hr] at hs
      cases hs
    · rw [hs]
      simp only [reduceCtorEq, Except.error.injEq, not_false_eq_true, implies_true, true_iff, true_and]
      exact ⟨p, hp, (C60_pn_fails_iff t.float p).1 hpf⟩

/-- C60: the codes in the output tell the kinds of issues apart. -/
theorem C60_codes (c d : Code) (v w : VCode) :
    (c.name = d.name → c = d) ∧ (v.name = w.name → v = w) ∧ c.name ≠ v.name := by
  refine ⟨?_, ?_, ?_⟩
  · cases c <;> cases d <;> decide
  · cases v <;> cases w <;> decide
  · cases c <;> cases v <;> decide

/-! ## Examples -/

deriving instance DecidableEq for PP.FloatVal

/-- The texts of these examples; `1e400` is infinite. -/
def sampleTexts : Texts where
  severity
    | .error => b!"error"
    | _ => b!"warning"
  issue _ := b!"message"
  parseError _ _ := b!"parse error"
  readError _ := b!"invalid unicode"
  float f := if f.text = b!"1e400" then none else some b!"1.5"

theorem sample_float (f : FloatVal) (s : GoStr) (h : sampleTexts.float f = some s) : jsonNumber s = true := by
  simp only [sampleTexts] at h
  split at h
  · cases h
  · injection h with h
    subst h
    decide

def sampleRun (file : GoStr) : Except (Option CliPanic) (Nat × GoStr) :=
  cliJson sampleTexts { fileName := b!"x.pp", content := file, json := true }

/-- The output of a run, with its exit status. -/
def written : Except (Option CliPanic) (Nat × GoStr) → Option (Nat × GoStr)
  | .ok r => some r
  | .error _ => none

/-- A program with strings that need escapes, an integer, a float, a boolean and undef. -/
example : written (sampleRun b!"$x = { 'a\"\n' => [1, 1.5, true, undef] }") = some (0,
    b!"{\"ast\":{\"^\":[\"block\",{\"^\":[\"=\",{\"^\":[\"var\",\"x\"]},{\"^\":[\"hash\",{\"^\":[\"=>\",\"a\\\"\\n\",{\"^\":[\"array\",1,1.5,true,null]}]}]}]}]}}\n\n") := by
  decide +kernel

def warnedRun : CliArgs :=
  { fileName := b!"x.pp", content := b!"$x = {a => 1, a => 2}", json := true, strict := b!"warning" }

/-- A warning and the AST. -/
example : written (cliJson sampleTexts warnedRun) = some (0,
    b!"{\"ast\":{\"^\":[\"block\",{\"^\":[\"=\",{\"^\":[\"var\",\"x\"]},{\"^\":[\"hash\",{\"^\":[\"=>\",{\"^\":[\"qn\",\"a\"]},1]},{\"^\":[\"=>\",{\"^\":[\"qn\",\"a\"]},2]}]}]}]},\"issues\":[{\"#\":[\"code\",\"VALIDATE_DUPLICATE_KEY\",\"severity\",\"warning\",\"message\",\"message\"]}]}\n\n") := by
  decide +kernel

/-- A syntax error. -/
example : written (sampleRun b!"$x = ") = some (1,
    b!"{\"issues\":[{\"#\":[\"code\",\"LEX_UNEXPECTED_TOKEN\",\"severity\",\"error\",\"message\",\"parse error\"]}]}\n\n") := by
  decide +kernel

/-- Text that is not UTF-8. -/
example : written (sampleRun [0x24, 0x78, 0x80]) = some (1, b!"{\"error\":\"invalid unicode\"}\n\n") := by
  decide +kernel

/-- An infinite float: the tool panics with `-j`, and prints the AST without. -/
example : written (sampleRun b!"$x = 1e400") = none ∧
    (cliMain { fileName := b!"x.pp", content := b!"$x = 1e400" }).toOption.isSome = true := by
  decide +kernel

/-- Bytes that are not UTF-8 in a string, as a caller of the PN package can make: they are replaced. -/
example : (PN.list [.lit (.str [0x61, 0xFF])]).toData.json (fun _ => none) = some b!"[\"a\\ufffd\"]" := by
  decide

/-- Validation only, without issues: an empty object. -/
example : written (cliJson sampleTexts { fileName := b!"x.pp", content := b!"$x = 1", json := true, validateOnly := true }) =
    some (0, b!"{}\n\n") := by
  decide +kernel

end PP.Props
