import Verif.PN
import Verif.Lemmas.Dec

/-!
# C03 - C06: Puppet Extended S-Expression Notation
-/

namespace PP.Props

/-! ## C03 -/

/-- Specification of the inside of a quoted string: `Quoted t s` when the text `t` between the quotes
stands for the bytes `s`.  The escapes `\t \n \r \" \\ \oNNN` stand for one byte; every other byte
stands for itself and is neither a control character nor a quote nor a backslash. -/
inductive Quoted : GoStr → GoStr → Prop
  | nil : Quoted [] []
  | plain (b : UInt8) (t s : GoStr) : 0x20 ≤ b.toNat → b ≠ 0x22 → b ≠ 0x5C → Quoted t s → Quoted (b :: t) (b :: s)
  | short (c b : UInt8) (t s : GoStr) :
      (c, b) ∈ [((0x74 : UInt8), (9 : UInt8)), (0x6E, 10), (0x72, 13), (0x22, 0x22), (0x5C, 0x5C)] →
      Quoted t s → Quoted (0x5C :: c :: t) (b :: s)
  | octal (x y z : Nat) (t s : GoStr) : x < 4 → y < 8 → z < 8 → Quoted t s →
      Quoted (0x5C :: 0x6F :: UInt8.ofNat (48 + x) :: UInt8.ofNat (48 + y) :: UInt8.ofNat (48 + z) :: t)
        (UInt8.ofNat (x * 64 + y * 8 + z) :: s)

theorem digit_inj {x y : Nat} (hx : x < 8) (hy : y < 8) (h : UInt8.ofNat (48 + x) = UInt8.ofNat (48 + y)) : x = y := by
  have := congrArg UInt8.toNat h
  rw [toNat_ofNat (by omega), toNat_ofNat (by omega)] at this
  omega

/-- A quoted text ends at its first unescaped quote and has one content. -/
theorem Quoted.unique {t1 s1 t2 s2 r1 r2 : GoStr} (h1 : Quoted t1 s1) (h2 : Quoted t2 s2)
    (h : t1 ++ 0x22 :: r1 = t2 ++ 0x22 :: r2) : t1 = t2 ∧ s1 = s2 ∧ r1 = r2 := by
  induction h1 generalizing t2 s2 with
  | nil =>
    cases h2 with
    | nil => simp_all
    | plain b t s hb hq hs ht => simp at h; exact absurd h.1.symm hq
    | short c b t s hc ht => simp at h
    | octal => simp at h
  | plain b t s hb hq hs ht ih =>
    cases h2 with
    | nil => simp at h; exact absurd h.1 hq
    | plain b' t' s' hb' hq' hs' ht' =>
      simp only [List.cons_append, List.cons.injEq] at h
      obtain ⟨e1, e2, e3⟩ := ih ht' h.2
      exact ⟨by rw [h.1, e1], by rw [h.1, e2], e3⟩
    | short c b' t' s' hc ht' => simp at h; exact absurd h.1 hs
    | octal => simp at h; exact absurd h.1 hs
  | short c b t s hc ht ih =>
    cases h2 with
    | nil => simp at h
    | plain b' t' s' hb' hq' hs' ht' => simp at h; exact absurd h.1.symm hs'
    | short c' b' t' s' hc' ht' =>
      simp only [List.cons_append, List.cons.injEq, true_and] at h
      obtain ⟨e1, e2, e3⟩ := ih ht' h.2
      have : b = b' := by
        simp only [List.mem_cons, Prod.mk.injEq, List.not_mem_nil, or_false] at hc hc'
        have hcc := h.1
        rcases hc with ⟨rfl, rfl⟩ | ⟨rfl, rfl⟩ | ⟨rfl, rfl⟩ | ⟨rfl, rfl⟩ | ⟨rfl, rfl⟩ <;>
        rcases hc' with ⟨rfl, rfl⟩ | ⟨rfl, rfl⟩ | ⟨rfl, rfl⟩ | ⟨rfl, rfl⟩ | ⟨rfl, rfl⟩ <;>
        first | rfl | exact absurd hcc (by decide)
      exact ⟨by rw [h.1, e1], by rw [this, e2], e3⟩
    | octal =>
      simp only [List.cons_append, List.cons.injEq, true_and] at h
      simp only [List.mem_cons, Prod.mk.injEq, List.not_mem_nil, or_false] at hc
      rcases hc with ⟨rfl, rfl⟩ | ⟨rfl, rfl⟩ | ⟨rfl, rfl⟩ | ⟨rfl, rfl⟩ | ⟨rfl, rfl⟩ <;>
        exact absurd h.1 (by decide)
  | octal x y z t s hx hy hz ht ih =>
    cases h2 with
    | nil => simp at h
    | plain b' t' s' hb' hq' hs' ht' => simp at h; exact absurd h.1.symm hs'
    | short c' b' t' s' hc' ht' =>
      simp only [List.cons_append, List.cons.injEq, true_and] at h
      simp only [List.mem_cons, Prod.mk.injEq, List.not_mem_nil, or_false] at hc'
      rcases hc' with ⟨rfl, rfl⟩ | ⟨rfl, rfl⟩ | ⟨rfl, rfl⟩ | ⟨rfl, rfl⟩ | ⟨rfl, rfl⟩ <;>
        exact absurd h.1 (by decide)
    | octal x' y' z' t' s' hx' hy' hz' ht' =>
      simp only [List.cons_append, List.cons.injEq, true_and] at h
      obtain ⟨g1, g2, g3, g4⟩ := h
      have := digit_inj (by omega) (by omega) g1
      have := digit_inj (by omega) (by omega) g2
      have := digit_inj (by omega) (by omega) g3
      subst_vars
      obtain ⟨e1, e2, e3⟩ := ih ht' g4
      exact ⟨by rw [e1], by rw [e2], e3⟩

theorem Quoted.append {t1 s1 t2 s2 : GoStr} (h1 : Quoted t1 s1) (h2 : Quoted t2 s2) :
    Quoted (t1 ++ t2) (s1 ++ s2) := by
  induction h1 with
  | nil => exact h2
  | plain b t s hb hq hs _ ih => exact .plain b _ _ hb hq hs ih
  | short c b t s hc _ ih => exact .short c b _ _ hc ih
  | octal x y z t s hx hy hz _ ih => exact .octal x y z _ _ hx hy hz ih

theorem Quoted.of_plain (t : GoStr) (h : ∀ b ∈ t, 0x20 ≤ b.toNat ∧ b ≠ 0x22 ∧ b ≠ 0x5C) : Quoted t t := by
  induction t with
  | nil => exact .nil
  | cons b t ih =>
    have hb := h b (by simp)
    exact .plain b t t hb.1 hb.2.1 hb.2.2 (ih fun x hx => h x (by simp [hx]))

theorem quoteRune_quoted (c : Nat) : Quoted (quoteRune c) (encodeRune c) := by
  unfold quoteRune
  split
  · next h => subst h; exact .short 0x74 9 [] [] (by simp) .nil
  split
  · next h => subst h; exact .short 0x6E 10 [] [] (by simp) .nil
  split
  · next h => subst h; exact .short 0x72 13 [] [] (by simp) .nil
  split
  · next h => subst h; exact .short 0x22 0x22 [] [] (by simp) .nil
  split
  · next h => subst h; exact .short 0x5C 0x5C [] [] (by simp) .nil
  next h1 h2 h3 h4 h5 =>
  split
  · next h =>
    have := Quoted.octal (c / 64 % 8) (c / 8 % 8) (c % 8) [] [] (by omega) (by omega) (by omega) .nil
    have e : c / 64 % 8 * 64 + c / 8 % 8 * 8 + c % 8 = c := by omega
    rw [e] at this
    rw [encodeRune_ascii (by omega)]
    exact this
  · next h =>
    apply Quoted.of_plain
    intro b hb
    by_cases h80 : b.toNat < 0x80
    · have := encodeRune_ascii_mem hb h80
      subst this
      refine ⟨by omega, ?_, ?_⟩
      · intro hb; subst hb; exact h4 rfl
      · intro hb; subst hb; exact h5 rfl
    · refine ⟨by omega, ?_, ?_⟩ <;> (intro hb; subst hb; exact h80 (by decide))

theorem quoteRunes_quoted (rs : List Nat) : Quoted (rs.flatMap quoteRune) (utf8 rs) := by
  induction rs with
  | nil => exact .nil
  | cons r rs ih => exact (quoteRune_quoted r).append ih

/-- C03, shape: `DoubleQuote` of any byte string is a quote, a text that obeys the quoting rules (so no
raw control character, and no unescaped quote) and a quote. It stands for the text in which Go's
`range` replaced invalid bytes by U+FFFD. -/
theorem C03_shape (s : GoStr) :
    ∃ t, doubleQuote s = 0x22 :: t ++ [0x22] ∧ Quoted t (utf8 (runes s)) :=
  ⟨(runes s).flatMap quoteRune, rfl, quoteRunes_quoted _⟩

/-- C03, content: for a valid UTF-8 string the quoted text stands for exactly that string. -/
theorem C03_content (rs : List Nat) (h : ∀ r ∈ rs, isScalar r = true) :
    ∃ t, doubleQuote (utf8 rs) = 0x22 :: t ++ [0x22] ∧ Quoted t (utf8 rs) := by
  have := C03_shape (utf8 rs)
  rwa [runes_utf8 rs h] at this

/-- A string that is valid UTF-8. -/
def ValidUtf8 (s : GoStr) : Prop := ∃ rs, (∀ r ∈ rs, isScalar r = true) ∧ s = utf8 rs

/-- C03, uniqueness: whatever follows, the quoted text can be told apart from what follows and
determines the (valid) string. -/
theorem C03_unique (s1 s2 r1 r2 : GoStr) (h1 : ValidUtf8 s1) (h2 : ValidUtf8 s2)
    (h : doubleQuote s1 ++ r1 = doubleQuote s2 ++ r2) : s1 = s2 ∧ r1 = r2 := by
  obtain ⟨a, ha, rfl⟩ := h1
  obtain ⟨b, hb, rfl⟩ := h2
  obtain ⟨t1, e1, q1⟩ := C03_content a ha
  obtain ⟨t2, e2, q2⟩ := C03_content b hb
  rw [e1, e2] at h
  simp only [List.cons_append, List.cons.injEq, true_and, List.append_assoc, List.nil_append] at h
  have := q1.unique q2 h
  exact ⟨this.2.1, this.2.2⟩

/-- C03, the limit: bytes that are not valid UTF-8 are lost (F20). -/
theorem C03_invalid_bytes_are_lost : doubleQuote [0xFF] = doubleQuote [0xFE] ∧ ([0xFF] : GoStr) ≠ [0xFE] := by
  decide +kernel

/-- C03 is not vacuous. -/
example : doubleQuote (utf8 [0x41, 0x22, 0x5C, 9, 1, 0x1F452]) =
    b!"\"A\\\"\\\\\\t\\o001👒\"" := by decide +kernel

example : ValidUtf8 b!"x👒\"" := ⟨[0x78, 0x1F452, 0x22], by decide +kernel, by decide +kernel⟩

/-! ## C04 -/

mutual
/-- PN trees the text form is meant for: call names without blank and closing parenthesis, keys as
`pn.Map` accepts them, valid strings, no floats. -/
def Clean : PN → Prop
  | .lit (.str s) => ValidUtf8 s
  | .lit (.float _) => False
  | .lit _ => True
  | .list es => CleanAll es
  | .map es => CleanEntries es
  | .call n es => (∀ b ∈ n, b ≠ 0x20 ∧ b ≠ 0x29) ∧ CleanAll es
def CleanAll : List PN → Prop
  | [] => True
  | p :: ps => Clean p ∧ CleanAll ps
def CleanEntries : List (GoStr × PN) → Prop
  | [] => True
  | (k, p) :: es => isKey k = true ∧ Clean p ∧ CleanEntries es
end

/-- The text after an element: the end, a blank, or a closing bracket. -/
def Stop (r : GoStr) : Prop := r = [] ∨ ∃ b t, r = b :: t ∧ (b = 0x20 ∨ b = 0x29 ∨ b = 0x5D ∨ b = 0x7D)

theorem Stop.cons {b : UInt8} {t : GoStr} (h : b = 0x20 ∨ b = 0x29 ∨ b = 0x5D ∨ b = 0x7D) : Stop (b :: t) :=
  Or.inr ⟨b, t, rfl, h⟩

theorem span_unique {P : UInt8 → Prop} {a b r1 r2 : GoStr} (ha : ∀ x ∈ a, P x) (hb : ∀ x ∈ b, P x)
    (h1 : r1 = [] ∨ ∃ x t, r1 = x :: t ∧ ¬ P x) (h2 : r2 = [] ∨ ∃ x t, r2 = x :: t ∧ ¬ P x)
    (h : a ++ r1 = b ++ r2) : a = b ∧ r1 = r2 := by
  induction a generalizing b with
  | nil =>
    cases b with
    | nil => exact ⟨rfl, h⟩
    | cons y b =>
      rcases h1 with h1 | ⟨x, t, h1, hx⟩
      · subst h1; simp at h
      · subst h1
        simp only [List.nil_append, List.cons_append, List.cons.injEq] at h
        exact absurd (h.1 ▸ hb y (by simp)) hx
  | cons x a ih =>
    cases b with
    | nil =>
      rcases h2 with h2 | ⟨y, t, h2, hy⟩
      · subst h2; simp at h
      · subst h2
        simp only [List.nil_append, List.cons_append, List.cons.injEq] at h
        exact absurd (h.1 ▸ ha x (by simp)) hy
    | cons y b =>
      simp only [List.cons_append, List.cons.injEq] at h
      obtain ⟨e1, e2⟩ := ih (fun z hz => ha z (by simp [hz])) (fun z hz => hb z (by simp [hz])) h.2
      exact ⟨by rw [h.1, e1], e2⟩

theorem int_unique {i j : Int} {r1 r2 : GoStr} (h1 : Stop r1) (h2 : Stop r2)
    (h : intToDec i ++ r1 = intToDec j ++ r2) : i = j ∧ r1 = r2 := by
  have conv : ∀ {r : GoStr}, Stop r → r = [] ∨ ∃ x t, r = x :: t ∧ ¬ (x.toNat = 45 ∨ 48 ≤ x.toNat ∧ x.toNat ≤ 57) := by
    intro r hr
    rcases hr with hr | ⟨b, t, hr, hb⟩
    · exact Or.inl hr
    · refine Or.inr ⟨b, t, hr, ?_⟩
      rcases hb with rfl | rfl | rfl | rfl <;> decide
  obtain ⟨e1, e2⟩ := span_unique (intToDec_char i) (intToDec_char j) (conv h1) (conv h2) h
  exact ⟨intToDec_injective e1, e2⟩

/-- First bytes of the text of an element. -/
def HeadClass (p : PN) (b : UInt8) : Prop :=
  match p with
  | .lit .nil => b = 0x6E
  | .lit (.str _) => b = 0x22
  | .lit (.int _) => b.toNat = 45 ∨ 48 ≤ b.toNat ∧ b.toNat ≤ 57
  | .lit (.float _) => True
  | .lit (.bool x) => b = if x then 0x74 else 0x66
  | .list _ => b = 0x5B
  | .map _ => b = 0x7B
  | .call _ _ => b = 0x28

theorem format_head (ff : FloatVal → GoStr) (p : PN) (hp : Clean p) :
    ∃ b t, p.format ff = b :: t ∧ HeadClass p b := by
  match p with
  | .lit .nil => exact ⟨_, _, by rw [PN.format]; rfl, rfl⟩
  | .lit (.str s) => exact ⟨_, _, by rw [PN.format]; rfl, rfl⟩
  | .lit (.int i) =>
    obtain ⟨b, t, h⟩ := List.exists_cons_of_ne_nil (intToDec_ne_nil i)
    exact ⟨b, t, by rw [PN.format]; exact h, intToDec_char i b (by rw [h]; simp)⟩
  | .lit (.float f) => exact (by simp [Clean] at hp)
  | .lit (.bool true) => exact ⟨_, _, by rw [PN.format]; rfl, rfl⟩
  | .lit (.bool false) => exact ⟨_, _, by rw [PN.format]; rfl, rfl⟩
  | .list es => exact ⟨_, _, by rw [PN.format]; rfl, rfl⟩
  | .map es => exact ⟨_, _, by rw [PN.format]; rfl, rfl⟩
  | .call n es => exact ⟨_, _, by rw [PN.format]; rfl, rfl⟩

theorem HeadClass.not_stop {p : PN} {b : UInt8} (hp : Clean p) (h : HeadClass p b) :
    ¬ (b = 0x20 ∨ b = 0x29 ∨ b = 0x5D ∨ b = 0x7D) := by
  match p with
  | .lit .nil => simp only [HeadClass] at h; subst h; decide
  | .lit (.str s) => simp only [HeadClass] at h; subst h; decide
  | .lit (.int i) =>
    simp only [HeadClass] at h
    rintro (rfl | rfl | rfl | rfl) <;> simp at h
  | .lit (.float f) => simp [Clean] at hp
  | .lit (.bool true) => simp only [HeadClass] at h; subst h; decide
  | .lit (.bool false) => simp only [HeadClass] at h; subst h; decide
  | .list es => simp only [HeadClass] at h; subst h; decide
  | .map es => simp only [HeadClass] at h; subst h; decide
  | .call n es => simp only [HeadClass] at h; subst h; decide

/-- The constructors of a PN, as far as the first byte tells them apart. -/
def shape : PN → Nat
  | .lit .nil => 0
  | .lit (.str _) => 1
  | .lit (.int _) => 2
  | .lit (.float _) => 3
  | .lit (.bool true) => 4
  | .lit (.bool false) => 5
  | .list _ => 6
  | .map _ => 7
  | .call _ _ => 8

/-- The shape that belongs to a first byte. -/
def shapeOf (b : UInt8) : Nat :=
  if b.toNat = 0x6E then 0 else if b.toNat = 0x22 then 1 else if b.toNat = 0x74 then 4
  else if b.toNat = 0x66 then 5 else if b.toNat = 0x5B then 6 else if b.toNat = 0x7B then 7
  else if b.toNat = 0x28 then 8 else 2

theorem HeadClass.shape {p : PN} {b : UInt8} (hp : Clean p) (h : HeadClass p b) : shape p = shapeOf b := by
  match p with
  | .lit .nil => simp only [HeadClass] at h; subst h; rfl
  | .lit (.str s) => simp only [HeadClass] at h; subst h; rfl
  | .lit (.int i) =>
    simp only [HeadClass] at h
    unfold shapeOf Props.shape
    simp only
    repeat rw [if_neg (by omega)]
  | .lit (.float f) => simp [Clean] at hp
  | .lit (.bool true) => simp only [HeadClass] at h; subst h; rfl
  | .lit (.bool false) => simp only [HeadClass] at h; subst h; rfl
  | .list es => simp only [HeadClass] at h; subst h; rfl
  | .map es => simp only [HeadClass] at h; subst h; rfl
  | .call n es => simp only [HeadClass] at h; subst h; rfl

theorem same_shape (ff : FloatVal → GoStr) {p q : PN} {r1 r2 : GoStr} (hp : Clean p) (hq : Clean q)
    (h : p.format ff ++ r1 = q.format ff ++ r2) : shape p = shape q := by
  obtain ⟨b, t, e1, h1⟩ := format_head ff p hp
  obtain ⟨c, u, e2, h2⟩ := format_head ff q hq
  rw [e1, e2] at h
  simp only [List.cons_append, List.cons.injEq] at h
  rw [h1.shape hp, h2.shape hq, h.1]

theorem name_unique {n m r1 r2 : GoStr} (hn : ∀ b ∈ n, b ≠ 0x20 ∧ b ≠ 0x29) (hm : ∀ b ∈ m, b ≠ 0x20 ∧ b ≠ 0x29)
    (h1 : ∃ x t, r1 = x :: t ∧ (x = 0x20 ∨ x = 0x29)) (h2 : ∃ x t, r2 = x :: t ∧ (x = 0x20 ∨ x = 0x29))
    (h : n ++ r1 = m ++ r2) : n = m ∧ r1 = r2 := by
  have conv : ∀ {r : GoStr}, (∃ x t, r = x :: t ∧ (x = 0x20 ∨ x = 0x29)) →
      r = [] ∨ ∃ x t, r = x :: t ∧ ¬ (x ≠ 0x20 ∧ x ≠ 0x29) := by
    rintro r ⟨x, t, e, hx⟩
    exact Or.inr ⟨x, t, e, by rintro ⟨a, b⟩; rcases hx with hx | hx <;> contradiction⟩
  exact span_unique hn hm (conv h1) (conv h2) h

theorem key_no_blank {k : GoStr} (h : isKey k = true) : ∀ b ∈ k, b ≠ 0x20 ∧ b ≠ 0x29 := by
  have cls : ∀ b : UInt8, isKeyChar b = true → b ≠ 0x20 ∧ b ≠ 0x29 := by
    intro b hb
    constructor <;> (rintro rfl; revert hb; decide)
  match k with
  | [] => simp
  | c :: cs =>
    simp only [isKey, Bool.and_eq_true, List.all_eq_true] at h
    intro b hb
    simp only [List.mem_cons] at hb
    rcases hb with rfl | hb
    · exact cls _ (by simp [isKeyChar, h.1])
    · exact cls _ (h.2 b hb)

/-- The text that follows the name of a call. -/
theorem call_tail (ff : FloatVal → GoStr) (es : List PN) (r : GoStr) :
    ∃ x t, ((if es.isEmpty then [] else b!" " ++ PN.formatElements ff es) ++ b!")") ++ r = x :: t ∧
      (x = 0x20 ∨ x = 0x29) := by
  cases es with
  | nil => exact ⟨0x29, r, rfl, Or.inr rfl⟩
  | cons e es => exact ⟨0x20, _, rfl, Or.inl rfl⟩

mutual
theorem format_inj (ff : FloatVal → GoStr) : ∀ (p q : PN) (r1 r2 : GoStr), Clean p → Clean q → Stop r1 → Stop r2 →
    p.format ff ++ r1 = q.format ff ++ r2 → p = q ∧ r1 = r2
  | .lit l, q, r1, r2, hp, hq, s1, s2, h => by
    have hs := same_shape ff hp hq h
    match l, q with
    | .nil, .lit .nil => exact ⟨rfl, by simpa [PN.format] using h⟩
    | .str s, .lit (.str t) =>
      simp only [Clean] at hp hq
      simp only [PN.format, Lit.format] at h
      obtain ⟨e1, e2⟩ := C03_unique s t r1 r2 hp hq h
      exact ⟨by rw [e1], e2⟩
    | .int i, .lit (.int j) =>
      simp only [PN.format, Lit.format] at h
      obtain ⟨e1, e2⟩ := int_unique s1 s2 h
      exact ⟨by rw [e1], e2⟩
    | .bool true, .lit (.bool true) => exact ⟨rfl, by simpa [PN.format] using h⟩
    | .bool false, .lit (.bool false) => exact ⟨rfl, by simpa [PN.format] using h⟩
    | .float f, _ => simp [Clean] at hp
    | _, .lit (.float _) => simp [Clean] at hq
    | .nil, .lit (.str _) | .nil, .lit (.int _) | .nil, .lit (.bool true) | .nil, .lit (.bool false)
    | .nil, .list _ | .nil, .map _ | .nil, .call _ _ => simp [shape] at hs
    | .str _, .lit .nil | .str _, .lit (.int _) | .str _, .lit (.bool true) | .str _, .lit (.bool false)
    | .str _, .list _ | .str _, .map _ | .str _, .call _ _ => simp [shape] at hs
    | .int _, .lit .nil | .int _, .lit (.str _) | .int _, .lit (.bool true) | .int _, .lit (.bool false)
    | .int _, .list _ | .int _, .map _ | .int _, .call _ _ => simp [shape] at hs
    | .bool true, .lit .nil | .bool true, .lit (.str _) | .bool true, .lit (.int _) | .bool true, .lit (.bool false)
    | .bool true, .list _ | .bool true, .map _ | .bool true, .call _ _ => simp [shape] at hs
    | .bool false, .lit .nil | .bool false, .lit (.str _) | .bool false, .lit (.int _) | .bool false, .lit (.bool true)
    | .bool false, .list _ | .bool false, .map _ | .bool false, .call _ _ => simp [shape] at hs
  | .list es, q, r1, r2, hp, hq, s1, s2, h => by
    have hs := same_shape ff hp hq h
    match q with
    | .list gs =>
      simp only [PN.format, List.append_assoc, List.cons_append, List.nil_append, List.cons.injEq, true_and] at h
      simp only [Clean] at hp hq
      obtain ⟨e1, e2⟩ := elements_inj ff es gs 0x5D r1 r2 hp hq (by simp) h
      exact ⟨by rw [e1], e2⟩
    | .lit .nil | .lit (.str _) | .lit (.int _) | .lit (.float _) | .lit (.bool true) | .lit (.bool false)
    | .map _ | .call _ _ => simp [shape] at hs
  | .map es, q, r1, r2, hp, hq, s1, s2, h => by
    have hs := same_shape ff hp hq h
    match q with
    | .map gs =>
      simp only [PN.format, List.append_assoc, List.cons_append, List.nil_append, List.cons.injEq, true_and] at h
      simp only [Clean] at hp hq
      obtain ⟨e1, e2⟩ := entries_inj ff es gs r1 r2 hp hq h
      exact ⟨by rw [e1], e2⟩
    | .lit .nil | .lit (.str _) | .lit (.int _) | .lit (.float _) | .lit (.bool true) | .lit (.bool false)
    | .list _ | .call _ _ => simp [shape] at hs
  | .call n es, q, r1, r2, hp, hq, s1, s2, h => by
    have hs := same_shape ff hp hq h
    match q with
    | .call m gs =>
      simp only [PN.format, List.append_assoc, List.cons_append, List.nil_append, List.cons.injEq, true_and] at h
      simp only [Clean] at hp hq
      have t1 := call_tail ff es r1
      have t2 := call_tail ff gs r2
      simp only [List.append_assoc, List.cons_append, List.nil_append] at t1 t2
      obtain ⟨e1, e2⟩ := name_unique hp.1 hq.1 t1 t2 h
      subst e1
      match es, gs with
      | [], [] =>
        simp at e2
        exact ⟨rfl, e2⟩
      | [], g :: gs => simp at e2
      | e :: es, [] => simp at e2
      | e :: es, g :: gs =>
        simp only [List.isEmpty_cons, Bool.false_eq_true, if_false, List.cons_append,
          List.cons.injEq, true_and] at e2
        obtain ⟨e3, e4⟩ := elements_inj ff (e :: es) (g :: gs) 0x29 r1 r2 hp.2 hq.2 (by simp) e2
        exact ⟨by rw [e3], e4⟩
    | .lit .nil | .lit (.str _) | .lit (.int _) | .lit (.float _) | .lit (.bool true) | .lit (.bool false)
    | .list _ | .map _ => simp [shape] at hs
theorem elements_inj (ff : FloatVal → GoStr) : ∀ (ps qs : List PN) (c : UInt8) (r1 r2 : GoStr),
    CleanAll ps → CleanAll qs → (c = 0x29 ∨ c = 0x5D) →
    PN.formatElements ff ps ++ c :: r1 = PN.formatElements ff qs ++ c :: r2 → ps = qs ∧ r1 = r2
  | [], [], c, r1, r2, _, _, _, h => by simpa [PN.formatElements] using h
  | [], q :: qs, c, r1, r2, _, hq, hc, h => by
    simp only [CleanAll] at hq
    obtain ⟨b, t, e, hb⟩ := format_head ff q hq.1
    simp only [PN.formatElements, e, List.cons_append, List.nil_append, List.cons.injEq] at h
    exact absurd (by rw [← h.1]; rcases hc with rfl | rfl <;> simp) (hb.not_stop hq.1)
  | p :: ps, [], c, r1, r2, hp, _, hc, h => by
    simp only [CleanAll] at hp
    obtain ⟨b, t, e, hb⟩ := format_head ff p hp.1
    simp only [PN.formatElements, e, List.cons_append, List.nil_append, List.cons.injEq] at h
    exact absurd (by rw [h.1]; rcases hc with rfl | rfl <;> simp) (hb.not_stop hp.1)
  | p :: ps, q :: qs, c, r1, r2, hp, hq, hc, h => by
    simp only [CleanAll] at hp hq
    simp only [PN.formatElements, List.append_assoc] at h
    have hstop : ∀ (l : List PN) (r : GoStr), Stop ((if l.isEmpty then [] else b!" " ++ PN.formatElements ff l) ++ c :: r) := by
      intro l r
      cases l with
      | nil => exact Stop.cons (by rcases hc with rfl | rfl <;> simp)
      | cons x xs => exact Stop.cons (Or.inl rfl)
    obtain ⟨e1, e2⟩ := format_inj ff p q _ _ hp.1 hq.1 (hstop ps r1) (hstop qs r2) h
    subst e1
    match ps, qs with
    | [], [] => simp at e2; exact ⟨rfl, e2⟩
    | [], g :: gs => simp at e2; rcases hc with rfl | rfl <;> simp at e2
    | e :: es, [] => simp at e2; rcases hc with rfl | rfl <;> simp at e2
    | e :: es, g :: gs =>
      simp only [List.isEmpty_cons, Bool.false_eq_true, if_false, List.cons_append, List.nil_append,
        List.cons.injEq, true_and] at e2
      obtain ⟨e3, e4⟩ := elements_inj ff (e :: es) (g :: gs) c r1 r2 hp.2 hq.2 hc e2
      exact ⟨by rw [e3], e4⟩
theorem entries_inj (ff : FloatVal → GoStr) : ∀ (ps qs : List (GoStr × PN)) (r1 r2 : GoStr),
    CleanEntries ps → CleanEntries qs →
    PN.formatEntries ff ps ++ 0x7D :: r1 = PN.formatEntries ff qs ++ 0x7D :: r2 → ps = qs ∧ r1 = r2
  | [], [], r1, r2, _, _, h => by simpa [PN.formatEntries] using h
  | [], (k, q) :: qs, r1, r2, _, hq, h => by simp [PN.formatEntries] at h
  | (k, p) :: ps, [], r1, r2, hp, _, h => by simp [PN.formatEntries] at h
  | (k, p) :: ps, (l, q) :: qs, r1, r2, hp, hq, h => by
    simp only [CleanEntries] at hp hq
    simp only [PN.formatEntries, List.append_assoc, List.cons_append, List.nil_append, List.cons.injEq, true_and] at h
    obtain ⟨e0, e00⟩ := name_unique (key_no_blank hp.1) (key_no_blank hq.1)
      ⟨_, _, rfl, Or.inl rfl⟩ ⟨_, _, rfl, Or.inl rfl⟩ h
    subst e0
    simp only [List.cons.injEq, true_and] at e00
    have hstop : ∀ (l : List (GoStr × PN)) (r : GoStr), Stop ((if l.isEmpty then [] else 0x20 :: PN.formatEntries ff l) ++ 0x7D :: r) := by
      intro l r
      cases l with
      | nil => exact Stop.cons (by simp)
      | cons x xs => exact Stop.cons (Or.inl rfl)
    obtain ⟨e1, e2⟩ := format_inj ff p q _ _ hp.2.1 hq.2.1 (hstop ps r1) (hstop qs r2) e00
    subst e1
    match ps, qs with
    | [], [] => simp at e2; exact ⟨rfl, e2⟩
    | [], g :: gs => simp at e2
    | e :: es, [] => simp at e2
    | e :: es, g :: gs =>
      simp only [List.isEmpty_cons, Bool.false_eq_true, if_false, List.cons_append,
        List.cons.injEq, true_and] at e2
      obtain ⟨e3, e4⟩ := entries_inj ff (e :: es) (g :: gs) r1 r2 hp.2.2 hq.2.2 e2
      exact ⟨by rw [e3], e4⟩
end

/-- C04: two (clean) PN trees with the same text are the same tree. -/
theorem C04_text_unambiguous (ff : FloatVal → GoStr) (p q : PN) (hp : Clean p) (hq : Clean q)
    (h : p.format ff = q.format ff) : p = q :=
  (format_inj ff p q [] [] hp hq (Or.inl rfl) (Or.inl rfl) (by simpa using h)).1

/-- C04, within a longer text: the text of a tree also says where the tree ends. -/
theorem C04_text_delimited (ff : FloatVal → GoStr) (p q : PN) (r1 r2 : GoStr) (hp : Clean p) (hq : Clean q)
    (s1 : Stop r1) (s2 : Stop r2) (h : p.format ff ++ r1 = q.format ff ++ r2) : p = q ∧ r1 = r2 :=
  format_inj ff p q r1 r2 hp hq s1 s2 h

/-- C04 is not vacuous: a clean tree of depth three, `(f [1 nil "x"] {:k (g)})`. -/
example : Clean (.call b!"f" [.list [.lit (.int 1), .lit .nil, .lit (.str b!"x")], .map [(b!"k", .call b!"g" [])]]) := by
  simp only [Clean, CleanAll, CleanEntries]
  refine ⟨by decide, ⟨trivial, trivial, ⟨[0x78], by decide, by decide⟩, trivial⟩, ⟨by decide, ⟨by decide, trivial⟩, trivial⟩, trivial⟩

/-- C04, the limit: a call name with a blank makes the text ambiguous. -/
theorem C04_blank_in_name (ff : FloatVal → GoStr) :
    (PN.call b!"f 1" []).format ff = (PN.call b!"f" [.lit (.int 1)]).format ff := by
  simp [PN.format, PN.formatElements, Lit.format, intToDec, natToDec, natDigits]

/-! ## C05 -/

mutual
/-- Specification of the data form, as a reader of it: a primitive is a literal, a slice is a list, a
dictionary is a call (single entry `^`, a slice with the name first) or a map (single entry `#`, a
slice of alternating keys and values); anything else is rejected. -/
def rebuild : Data → Option PN
  | .prim v => some (.lit v)
  | .slice es => (rebuildList es).map .list
  | .dict es => match es with
    | [(k, .slice es)] =>
      if k = b!"#" then (rebuildEntries es).map .map
      else if k = b!"^" then
        match es with
        | .prim (.str n) :: as => (rebuildList as).map (.call n)
        | _ => none
      else none
    | _ => none
def rebuildList : List Data → Option (List PN)
  | [] => some []
  | d :: ds => match rebuild d, rebuildList ds with
    | some p, some ps => some (p :: ps)
    | _, _ => none
def rebuildEntries : List Data → Option (List (GoStr × PN))
  | [] => some []
  | .prim (.str k) :: d :: ds => match rebuild d, rebuildEntries ds with
    | some p, some ps => some ((k, p) :: ps)
    | _, _ => none
  | _ => none
end


mutual
theorem rebuild_toData : (p : PN) → rebuild p.toData = some p
  | .lit v => by simp [PN.toData, rebuild]
  | .list es => by simp [PN.toData, rebuild, rebuildList_toDataList es]
  | .map es => by
    simp [PN.toData, rebuild, rebuildEntries_toDataEntries es]
  | .call n es => by
    have h : (b!"^" : GoStr) ≠ b!"#" := by decide
    simp [PN.toData, rebuild, rebuildList_toDataList es]
theorem rebuildList_toDataList : (ps : List PN) → rebuildList (PN.toDataList ps) = some ps
  | [] => rfl
  | p :: ps => by simp [PN.toDataList, rebuildList, rebuild_toData p, rebuildList_toDataList ps]
theorem rebuildEntries_toDataEntries : (es : List (GoStr × PN)) → rebuildEntries (PN.toDataEntries es) = some es
  | [] => rfl
  | (k, p) :: es => by
    simp [PN.toDataEntries, rebuildEntries, rebuild_toData p, rebuildEntries_toDataEntries es]
end

/-- C05: the PN tree can be rebuilt from its data form by a reader that knows nothing but the format. -/
theorem C05_data_rebuilds (p : PN) : rebuild p.toData = some p := rebuild_toData p

/-- C05: different trees have different data forms. -/
theorem C05_data_injective (p q : PN) (h : p.toData = q.toData) : p = q := by
  have := congrArg rebuild h
  rw [rebuild_toData, rebuild_toData] at this
  exact Option.some.inj this

mutual
/-- Specification: every dictionary in the data has exactly one entry, its key is `^` or `#` and its
value is a slice; the slice under `^` starts with a string. -/
inductive SelfDescribing : Data → Prop
  | prim (v : Lit) : SelfDescribing (.prim v)
  | slice (ds : List Data) : AllSelfDescribing ds → SelfDescribing (.slice ds)
  | call (n : GoStr) (ds : List Data) : AllSelfDescribing ds →
      SelfDescribing (.dict [(b!"^", .slice (.prim (.str n) :: ds))])
  | map (ds : List Data) : Alternating ds → SelfDescribing (.dict [(b!"#", .slice ds)])
inductive AllSelfDescribing : List Data → Prop
  | nil : AllSelfDescribing []
  | cons (d : Data) (ds : List Data) : SelfDescribing d → AllSelfDescribing ds → AllSelfDescribing (d :: ds)
/-- Keys and values alternate. -/
inductive Alternating : List Data → Prop
  | nil : Alternating []
  | cons (k : GoStr) (d : Data) (ds : List Data) : SelfDescribing d → Alternating ds →
      Alternating (.prim (.str k) :: d :: ds)
end

mutual
theorem toData_self : (p : PN) → SelfDescribing p.toData
  | .lit v => .prim v
  | .list es => .slice _ (toDataList_self es)
  | .map es => .map _ (toDataEntries_self es)
  | .call n es => .call n _ (toDataList_self es)
theorem toDataList_self : (ps : List PN) → AllSelfDescribing (PN.toDataList ps)
  | [] => .nil
  | p :: ps => .cons _ _ (toData_self p) (toDataList_self ps)
theorem toDataEntries_self : (es : List (GoStr × PN)) → Alternating (PN.toDataEntries es)
  | [] => .nil
  | (k, p) :: es => .cons k _ _ (toData_self p) (toDataEntries_self es)
end

/-- C05: the data form consists of primitives, slices and one-entry dictionaries keyed `^` or `#`. -/
theorem C05_data_shape (p : PN) : SelfDescribing p.toData := toData_self p

/-- C05 on a concrete tree: `(f {:k [1]})`. -/
example : (PN.call b!"f" [.map [(b!"k", .list [.lit (.int 1)])]]).toData =
    .dict [(b!"^", .slice [.prim (.str b!"f"),
      .dict [(b!"#", .slice [.prim (.str b!"k"), .slice [.prim (.int 1)]])]])] := by
  simp [PN.toData, PN.toDataList, PN.toDataEntries]

/-! ## C06 -/

/-- C06: `AsCall` always gives a call with the requested name ... -/
theorem C06_asCall_is_call (n : GoStr) (p : PN) : ∃ es, p.asCall n = .call n es := by
  cases p <;> exact ⟨_, rfl⟩

/-- ... whose parameters are the parameters of the original: a call keeps its arguments, a list is
spread, a map or literal is the only argument. -/
theorem C06_asParameters_asCall (n : GoStr) (p : PN) : (p.asCall n).asParameters = p.asParameters := by
  cases p <;> rfl

/-- C06: renaming twice is renaming once. -/
theorem C06_asCall_asCall (m n : GoStr) (p : PN) : (p.asCall m).asCall n = p.asCall n := by
  cases p <;> rfl

/-- C06: a call is rebuilt from its name and its parameters. -/
theorem C06_call_inverse (n : GoStr) (es : List PN) :
    (PN.call n es).asCall n = .call n es ∧ (PN.call n es).asParameters = es ∧
    (PN.list es).asCall n = .call n es ∧ (PN.list es).asParameters = es := ⟨rfl, rfl, rfl, rfl⟩

/-- C06: a map or a literal is the single argument. -/
theorem C06_single_argument (n : GoStr) (p : PN) (h : ∀ es, p ≠ .list es) (h' : ∀ m es, p ≠ .call m es) :
    p.asCall n = .call n [p] ∧ p.asParameters = [p] := by
  cases p with
  | list es => exact absurd rfl (h es)
  | call m es => exact absurd rfl (h' m es)
  | _ => exact ⟨rfl, rfl⟩

/-- C06 on a concrete map, which satisfies the hypotheses of the previous theorem. -/
example : (PN.map [(b!"k", .lit .nil)]).asCall b!"f" = .call b!"f" [.map [(b!"k", .lit .nil)]] :=
  (C06_single_argument _ _ (by simp) (by simp)).1

end PP.Props
