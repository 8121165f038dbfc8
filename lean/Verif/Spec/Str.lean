import Verif.Model.String

/-!
# Strings as plain byte sequences

The specification of programs with strings: every variable holds a row of bytes, where `none` stands for a byte that
the program has not determined (a string that was made longer by `resize`). Only the names of the statements
(`Str.Op`) are taken from the model.
-/

namespace Coil
namespace Spec

/-- A text whose `none` bytes are unspecified. -/
abbrev Text := List (Option UInt8)

/-- Variables with their texts (`none`: destroyed). -/
abbrev Texts := List (Option Text)

/-- The text of a live variable. -/
def textOf (e : Texts) (v : Nat) : Option Text := (e[v]?).join

/-- A part of a text; `none` if it reaches beyond the end. -/
def part (l : Text) (off len : Nat) : Option Text :=
  if off + len ≤ l.length then some ((l.drop off).take len) else none

/-- What a statement does to the texts; `none` if its precondition (live variables, parts and indices in range)
does not hold. A move leaves the old value of the target in the source, and an empty text in the source of a
move construction. -/
def textStep (e : Texts) : Str.Op → Option Texts
  | .ofBytes xs => some (e ++ [some (xs.map some)])
  | .ofPart src off len => (textOf e src).bind (fun l => (part l off len).map (fun p => e ++ [some p]))
  | .copyNew src => (textOf e src).map (fun l => e ++ [some l])
  | .moveNew src => (textOf e src).map (fun l => e.set src (some []) ++ [some l])
  | .copyAssign dst src => (textOf e src).bind (fun l => (textOf e dst).map (fun _ => e.set dst (some l)))
  | .moveAssign dst src =>
    (textOf e src).bind (fun l => (textOf e dst).map (fun old => (e.set src (some old)).set dst (some l)))
  | .reserve v _ => (textOf e v).map (fun _ => e)
  | .resize v n => (textOf e v).map (fun l => e.set v (some (l.take n ++ List.replicate (n - l.length) none)))
  | .append v xs => (textOf e v).map (fun l => e.set v (some (l ++ xs.map some)))
  | .appendPart v src off len =>
    (textOf e src).bind (fun k => (part k off len).bind (fun p => (textOf e v).map (fun l => e.set v (some (l ++ p)))))
  | .write v i x => (textOf e v).bind (fun l => if i < l.length then some (e.set v (some (l.set i (some x)))) else none)
  | .destroy v => (textOf e v).map (fun _ => e.set v none)

/-- A program on texts. -/
def textRun : Texts → List Str.Op → Option Texts
  | e, [] => some e
  | e, op :: ops => (textStep e op).bind (fun e' => textRun e' ops)

/-- The requested sizes, with the terminator, are representable in `size_t`. -/
def TextFits (e : Texts) : Str.Op → Prop
  | .ofBytes xs => xs.length + 1 < 2 ^ 64
  | .reserve _ n => n + 1 < 2 ^ 64
  | .resize _ n => n + 1 < 2 ^ 64
  | .append v xs => ∀ l, textOf e v = some l → l.length + xs.length + 1 < 2 ^ 64
  | .appendPart v _ _ len => ∀ l, textOf e v = some l → l.length + len + 1 < 2 ^ 64
  | _ => True

/-- All statements of a program fit. -/
def TextFitsAll : Texts → List Str.Op → Prop
  | _, [] => True
  | e, op :: ops => TextFits e op ∧ ∀ e', textStep e op = some e' → TextFitsAll e' ops

/-- The statement appends part of a string to the string itself. -/
def SelfAppend : Str.Op → Prop
  | .appendPart v src _ _ => v = src
  | _ => False

/-- The statement moves from a string. -/
def Moves : Str.Op → Prop
  | .moveNew _ => True
  | .moveAssign _ _ => True
  | _ => False

/-- The statement may change or end the string `w`. -/
def Concerns (w : Nat) : Str.Op → Prop
  | .moveNew src => w = src
  | .copyAssign dst _ => w = dst
  | .moveAssign dst src => w = dst ∨ w = src
  | .reserve v _ => w = v
  | .resize v _ => w = v
  | .append v _ => w = v
  | .appendPart v _ _ _ => w = v
  | .write v _ _ => w = v
  | .destroy v => w = v
  | _ => False

/-- Bytes in memory agree with a text wherever the text is specified. -/
def Agrees (xs : List (Option UInt8)) (l : Text) : Prop := ∀ (i : Nat) b, l[i]? = some (some b) → xs[i]? = some (some b)

/-- The string whose text the statement uses, by copying it or by viewing part of it. -/
def sourceOf : Str.Op → Option Nat
  | .ofPart src _ _ => some src
  | .copyNew src => some src
  | .copyAssign _ src => some src
  | .appendPart _ src _ _ => some src
  | _ => none

/-- Which strings were moved from and not given a text or a size since. -/
def hollowAfter (h : List Bool) : Str.Op → List Bool
  | .ofBytes _ => h ++ [false]
  | .ofPart _ _ _ => h ++ [false]
  | .copyNew _ => h ++ [false]
  | .moveNew src => h.set src true ++ [h.getD src false]
  | .copyAssign dst _ => h.set dst false
  | .moveAssign dst src => (h.set src (h.getD dst false)).set dst (h.getD src false)
  | .reserve v _ => h.set v false
  | .resize v _ => h.set v false
  | .append v _ => h.set v false
  | .appendPart v _ _ _ => h.set v false
  | .write _ _ _ => h
  | .destroy _ => h

/-- Somewhere in the program the text of a string is used that was moved from and not given a text or a size since. -/
def TakesHollow : List Bool → List Str.Op → Prop
  | _, [] => False
  | h, op :: ops => (∃ v, sourceOf op = some v ∧ h[v]? = some true) ∨ TakesHollow (hollowAfter h op) ops

end Spec
end Coil
