import Verif.Spec.Lexer

/-!
# Command lines without quotes, parentheses and `=`

What the default lexer should do with them, as a function on texts. The character codes are written out.
-/

namespace Coil.Spec.Plain

/-- The longest runs of bytes without a `p`-byte, in order; `run` is the run being read. -/
def fieldsFrom (p : Byte → Bool) : Bytes → Bytes → List Bytes
  | run, [] => if run = [] then [] else [run]
  | run, c :: t =>
    if p c then (if run = [] then fieldsFrom p [] t else run :: fieldsFrom p [] t)
    else fieldsFrom p (run ++ [c]) t

/-- The longest runs of bytes without a `p`-byte, in order. -/
def fields (p : Byte → Bool) (s : Bytes) : List Bytes := fieldsFrom p [] s

/-- space, tab, line feed, carriage return -/
def blank (c : Byte) : Bool := c == 32 || c == 9 || c == 10 || c == 13

/-- `,` `;` `|` -/
def comma (c : Byte) : Bool := c == 44 || c == 59 || c == 124

/-- A word is a list if it has a comma behind its first character. -/
def listy (w : Bytes) : Bool := w.tail.any comma

/-- What a word stands for. -/
def valueOf (w : Bytes) : GValue Bytes := if listy w then ⟨fields comma w⟩ else ⟨[w]⟩

/-- Neither `'` nor `"` nor `(` nor `)` nor `=`. -/
def plain (c : Byte) : Bool := !(c == 39 || c == 34 || c == 40 || c == 41 || c == 61)

/-- The command that a plain line stands for. -/
def meaning (s : Bytes) : Except Bytes (GInput Bytes) :=
  match fields blank s with
  | [] => .ok ⟨[], [], []⟩
  | n :: args =>
    if listy n then
      .error (lit "Unexpected token '" ++ n.takeWhile (· ≠ 0) ++ lit "' at the beginning of the expression")
    else .ok ⟨n, args.map valueOf, []⟩

end Coil.Spec.Plain
