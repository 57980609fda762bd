import Verif.Monad

/-!
# Locator: parser/expression.go:560-610
-/
namespace PP

/-- Panics of the locator: the reader rejects the text, or the line index is accessed at -1.  parser/expression.go:584-609 with parser/reader.go:55-71. -/
inductive LocErr where
  | invalidUnicode (pos : Nat)
  | index
deriving DecidableEq, Repr

/-- The loop of `getLineIndex`, parser/expression.go:584-596: the offsets after each newline, up to
the end of the text or a NUL.  `rest` is the text from offset `pos`. -/
def lineIndexLoop : Nat → Nat → GoStr → Except LocErr (List Nat)
  | 0, _, _ => .ok []
  | _ + 1, _, [] => .ok []
  | f + 1, pos, b :: bs =>
    let cw := decodeRune (b :: bs)
    if cw.1 = runeError then .error (.invalidUnicode pos)
    else if cw.1 = 0 then .ok []
    else
      match lineIndexLoop f (pos + cw.2) ((b :: bs).drop cw.2) with
      | .ok li => .ok (if cw.1 = c%'\n' then (pos + cw.2) :: li else li)
      | .error e => .error e

/-- `getLineIndex`, parser/expression.go:584-596 (without the cache). -/
def lineIndex (text : GoStr) : Except LocErr (List Nat) :=
  match lineIndexLoop text.length 0 text with
  | .ok li => .ok (0 :: li)
  | .error e => .error e

/-- Go `sort.SearchInts` on an ascending slice: the number of leading elements below `x`.  Called in parser/expression.go:576 and 600. -/
def searchInts (li : List Nat) (x : Int) : Nat := (li.takeWhile fun (n : Nat) => decide ((n : Int) < x)).length

/-- `LineForOffset`, parser/expression.go:575-577. -/
def lineForOffset (text : GoStr) (off : Int) : Except LocErr Nat :=
  match lineIndex text with
  | .ok li => .ok (searchInts li (off + 1))
  | .error e => .error e

/-- `PosOnLine` and `offsetOnLine`, parser/expression.go:580-582 and 598-609. -/
def posOnLine (text : GoStr) (off : Int) : Except LocErr Nat :=
  match lineIndex text with
  | .error e => .error e
  | .ok li =>
    match searchInts li (off + 1) with
    | 0 => .error .index
    | line + 1 =>
      match li[line]? with
      | none => .error .index
      | some lineStart =>
        if off = lineStart then .ok 1
        else
          let o := if (text.length : Int) < off then text.length else off.toNat
          .ok (runeCount ((text.drop lineStart).take (o - lineStart)) + 1)

end PP
