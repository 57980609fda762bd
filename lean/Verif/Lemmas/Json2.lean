import Verif.Lemmas.Json

/-! # The JSON text of PN is read back. -/
namespace PP

theorem digitByte_word {b : UInt8} (h : isDigitByte b = true) : wordByte b = true := by
  simp only [isDigitByte, Bool.and_eq_true, decide_eq_true_eq] at h
  exact digit_word h

theorem takeDrop_word {s : GoStr} (h : ∀ b ∈ s.dropWhile isDigitByte, wordByte b = true) : ∀ b ∈ s, wordByte b = true := by
  intro b hb
  rw [← List.takeWhile_append_dropWhile (p := isDigitByte) (l := s)] at hb
  rcases List.mem_append.1 hb with hb | hb
  · have := List.all_takeWhile (p := isDigitByte) (l := s)
    rw [List.all_eq_true] at this
    exact digitByte_word (this b hb)
  · exact h b hb

theorem allDigits_word {s : GoStr} (h : allDigits s = true) : ∀ b ∈ s, wordByte b = true := by
  intro b hb
  simp only [allDigits, Bool.and_eq_true, List.all_eq_true] at h
  exact digitByte_word (h.2 b hb)

theorem cons_word {c : UInt8} {s : GoStr} (hc : wordByte c = true) (h : ∀ b ∈ s, wordByte b = true) :
    ∀ b ∈ c :: s, wordByte b = true := by
  intro b hb
  rcases List.mem_cons.1 hb with rfl | hb
  · exact hc
  · exact h b hb

theorem exponent_word {s : GoStr} (h : (match s with
    | [] => true
    | e :: s => (e == 0x65 || e == 0x45) && match s with
      | 0x2B :: s => allDigits s
      | 0x2D :: s => allDigits s
      | s => allDigits s) = true) : ∀ b ∈ s, wordByte b = true := by
  cases s with
  | nil => intro b hb; cases hb
  | cons e s =>
    simp only [Bool.and_eq_true, Bool.or_eq_true, beq_iff_eq] at h
    refine cons_word (by rcases h.1 with rfl | rfl <;> decide) ?_
    have h2 := h.2
    split at h2
    · exact cons_word (by decide) (allDigits_word h2)
    · exact cons_word (by decide) (allDigits_word h2)
    · exact allDigits_word h2

theorem jsonNumber_word {w : GoStr} (h : jsonNumber w = true) : ∀ b ∈ w, wordByte b = true := by
  have body : ∀ s : GoStr, (match s.dropWhile isDigitByte with
      | 0x2E :: s => !(s.takeWhile isDigitByte).isEmpty && (match s.dropWhile isDigitByte with
        | [] => true
        | e :: s => (e == 0x65 || e == 0x45) && match s with
          | 0x2B :: s => allDigits s
          | 0x2D :: s => allDigits s
          | s => allDigits s)
      | s => (match s with
        | [] => true
        | e :: s => (e == 0x65 || e == 0x45) && match s with
          | 0x2B :: s => allDigits s
          | 0x2D :: s => allDigits s
          | s => allDigits s)) = true → ∀ b ∈ s, wordByte b = true := by
    intro s hs
    apply takeDrop_word
    split at hs
    · rename_i s' e
      rw [e]
      simp only [Bool.and_eq_true] at hs
      exact cons_word (by decide) (takeDrop_word (exponent_word hs.2))
    · exact exponent_word hs
  unfold jsonNumber at h
  simp only [Bool.and_eq_true] at h
  split at h
  · exact cons_word (by decide) (body _ h.2)
  · exact body _ h.2

theorem shown_hash : shown b!"#" = b!"#" := by decide
theorem shown_caret : shown b!"^" = b!"^" := by decide

/-- How the float printer shows the floats. -/
def printed (jf : FloatVal → Option GoStr) (f : FloatVal) : GoStr := (jf f).getD []

mutual
theorem good_pn {jf : FloatVal → Option GoStr} (hf : ∀ f t, jf f = some t → jsonNumber t = true) :
    ∀ (p : PN) {t}, p.toData.json jf = some t → ReadAs t (p.asJson (printed jf))
  | .lit v, t, h => by
    rw [PN.toData, Data.json] at h
    cases v with
    | nil =>
      simp only [Lit.json, Option.some.injEq] at h
      subst h
      exact good_word (by decide) (by decide) (fun r => by rfl)
    | str s =>
      simp only [Lit.json, Option.some.injEq] at h
      subst h
      exact good_string s
    | int i =>
      simp only [Lit.json, Option.some.injEq] at h
      subst h
      exact good_int i
    | float f =>
      simp only [Lit.json] at h
      have : printed jf f = t := by simp [printed, h]
      simp only [PN.asJson]
      rw [this]
      exact good_number (hf f t h) (jsonNumber_word (hf f t h))
    | bool b =>
      cases b with
      | true =>
        simp only [Lit.json, Option.some.injEq] at h
        subst h
        exact good_word (by decide) (by decide) (fun r => by rfl)
      | false =>
        simp only [Lit.json, Option.some.injEq] at h
        subst h
        exact good_word (by decide) (by decide) (fun r => by rfl)
  | .list es, t, h => by
    rw [PN.toData, Data.json] at h
    obtain ⟨ts, ht, rfl⟩ := Option.map_eq_some_iff.1 h
    rw [PN.asJson]
    exact good_arr (goods_pn hf es ht)
  | .map es, t, h => by
    rw [PN.toData, Data.json] at h
    obtain ⟨ms, hm, rfl⟩ := Option.map_eq_some_iff.1 h
    cases hl : Data.jsonList jf (PN.toDataEntries es) with
    | none => simp [Data.jsonEntries, Data.json, hl] at hm
    | some ts =>
      simp only [Data.jsonEntries, Data.json, hl, Option.map_some, Option.some.injEq] at hm
      subst hm
      rw [PN.asJson]
      have := MembersReadAs.cons (k := b!"#") (good_arr (goods_entries hf es hl)) .nil
      rw [shown_hash] at this
      exact good_obj this
  | .call name es, t, h => by
    rw [PN.toData, Data.json] at h
    obtain ⟨ms, hm, rfl⟩ := Option.map_eq_some_iff.1 h
    cases hl : Data.jsonList jf (PN.toDataList es) with
    | none => simp [Data.jsonEntries, Data.json, Data.jsonList, hl] at hm
    | some ts =>
      simp only [Data.jsonEntries, Data.json, Data.jsonList, Lit.json, hl, Option.map_some, Option.some.injEq] at hm
      subst hm
      rw [PN.asJson]
      have := MembersReadAs.cons (k := b!"^") (good_arr (.cons (good_string name) (goods_pn hf es hl))) .nil
      rw [shown_caret] at this
      exact good_obj this
theorem goods_pn {jf : FloatVal → Option GoStr} (hf : ∀ f t, jf f = some t → jsonNumber t = true) :
    ∀ (ps : List PN) {ts}, Data.jsonList jf (PN.toDataList ps) = some ts → AllReadAs ts (PN.asJsonList (printed jf) ps)
  | [], ts, h => by
    simp only [PN.toDataList, Data.jsonList, Option.some.injEq] at h
    subst h
    exact .nil
  | p :: ps, ts, h => by
    rw [PN.toDataList, Data.jsonList] at h
    split at h
    · rename_i t ts' h1 h2
      injection h with h
      subst h
      exact .cons (good_pn hf p h1) (goods_pn hf ps h2)
    · cases h
theorem goods_entries {jf : FloatVal → Option GoStr} (hf : ∀ f t, jf f = some t → jsonNumber t = true) :
    ∀ (ps : List (GoStr × PN)) {ts}, Data.jsonList jf (PN.toDataEntries ps) = some ts →
      AllReadAs ts (PN.asJsonEntries (printed jf) ps)
  | [], ts, h => by
    simp only [PN.toDataEntries, Data.jsonList, Option.some.injEq] at h
    subst h
    exact .nil
  | (k, p) :: ps, ts, h => by
    rw [PN.toDataEntries, Data.jsonList, Data.json, Lit.json, Data.jsonList] at h
    split at h
    · rename_i t ts' h1 h2
      injection h with h
      subst h
      injection h1 with h1
      subst h1
      split at h2
      · rename_i t' ts'' h3 h4
        injection h2 with h2
        subst h2
        exact .cons (good_string k) (.cons (good_pn hf p h3) (goods_entries hf ps h4))
      · cases h2
    · cases h
end

mutual
theorem json_some_iff {jf : FloatVal → Option GoStr} :
    ∀ (p : PN), (p.toData.json jf).isSome = true ↔ ∀ f ∈ p.floats, (jf f).isSome = true
  | .lit v => by
    rw [PN.toData, Data.json]
    cases v with
    | bool b => cases b <;> simp [Lit.json, PN.floats]
    | _ => simp [Lit.json, PN.floats]
  | .list es => by
    rw [PN.toData, Data.json, Option.isSome_map, PN.floats]
    exact jsonList_some_iff es
  | .map es => by
    rw [PN.toData, Data.json, Option.isSome_map, PN.floats, ← jsonEntries_some_iff es]
    rw [Data.jsonEntries, Data.json]
    cases Data.jsonList jf (PN.toDataEntries es) <;> simp [Data.jsonEntries]
  | .call name es => by
    rw [PN.toData, Data.json, Option.isSome_map, PN.floats, ← jsonList_some_iff es]
    rw [Data.jsonEntries, Data.json, Data.jsonList]
    cases Data.jsonList jf (PN.toDataList es) <;> simp [Data.jsonEntries, Data.json, Lit.json]
theorem jsonList_some_iff {jf : FloatVal → Option GoStr} :
    ∀ (ps : List PN), (Data.jsonList jf (PN.toDataList ps)).isSome = true ↔ ∀ f ∈ PN.floatsList ps, (jf f).isSome = true
  | [] => by simp [PN.toDataList, Data.jsonList, PN.floatsList]
  | p :: ps => by
    have h1 := json_some_iff (jf := jf) p
    have h2 := jsonList_some_iff (jf := jf) ps
    rw [PN.toDataList, Data.jsonList, PN.floatsList]
    simp only [List.mem_append, or_imp, forall_and, ← h1, ← h2]
    cases p.toData.json jf <;> cases Data.jsonList jf (PN.toDataList ps) <;> simp
theorem jsonEntries_some_iff {jf : FloatVal → Option GoStr} :
    ∀ (ps : List (GoStr × PN)),
      (Data.jsonList jf (PN.toDataEntries ps)).isSome = true ↔ ∀ f ∈ PN.floatsEntries ps, (jf f).isSome = true
  | [] => by simp [PN.toDataEntries, Data.jsonList, PN.floatsEntries]
  | (k, p) :: ps => by
    have h1 := json_some_iff (jf := jf) p
    have h2 := jsonEntries_some_iff (jf := jf) ps
    rw [PN.toDataEntries, Data.jsonList, Data.jsonList, PN.floatsEntries]
    simp only [List.mem_append, or_imp, forall_and, ← h1, ← h2, Data.json, Lit.json]
    cases p.toData.json jf <;> cases Data.jsonList jf (PN.toDataEntries ps) <;> simp
end

end PP
