import Verif.Spec.Lexer

/-!
# Ways of writing a command

The concrete spellings of a command: which quotes, which parentheses, how much white space.
`text` is the command line, `denotes` the command that is meant. Nothing here refers to the
lexer.
-/

namespace Coil.Spec

/-- A spelling of one sub-value inside a compound value. -/
inductive SPart where
  /-- written as it is -/
  | bare (w : Bytes)
  /-- written between two quote characters -/
  | quoted (q q' : Byte) (w : Bytes)

/-- The spelling. -/
def SPart.text : SPart → Bytes
  | .bare w => w
  | .quoted q q' w => q :: (w ++ [q'])

/-- The sub-value meant. -/
def SPart.denotes : SPart → Bytes
  | .bare w => w
  | .quoted _ _ w => w

/-- Legal spellings: bare parts are not empty and have no separator, quote or parenthesis; quoted
parts have no quote and no parenthesis. -/
def SPart.WF (d : Delims) : SPart → Prop
  | .bare w => w ≠ [] ∧ ∀ c ∈ w, ¬ Separator d c ∧ c ∉ d.quotes ∧ c ∉ d.parens
  | .quoted q q' w => q ∈ d.quotes ∧ q' ∈ d.quotes ∧ ∀ c ∈ w, c ∉ d.quotes ∧ c ∉ d.parens

/-- Parts of a compound value, each followed by a run of separators. -/
def partsText : List (SPart × Bytes) → Bytes
  | [] => []
  | (p, run) :: rest => p.text ++ (run ++ partsText rest)

/-- Runs of separators; the ones between two parts are not empty. -/
def PartsWF (d : Delims) : List (SPart × Bytes) → Prop
  | [] => True
  | (p, run) :: rest => p.WF d ∧ (∀ c ∈ run, Separator d c) ∧ (rest ≠ [] → run ≠ []) ∧ PartsWF d rest

/-- A spelling of a value. -/
inductive SValue where
  /-- a simple value written as it is -/
  | bare (w : Bytes)
  /-- a simple value between quotes -/
  | quoted (q q' : Byte) (w : Bytes)
  /-- a compound value in parentheses, with leading separators -/
  | group (p p' : Byte) (lead : Bytes) (parts : List (SPart × Bytes))
  /-- a compound value without parentheses, like `1,2;3` -/
  | list (parts : List (SPart × Bytes))

/-- The spelling. -/
def SValue.text : SValue → Bytes
  | .bare w => w
  | .quoted q q' w => q :: (w ++ [q'])
  | .group p p' lead parts => p :: ((lead ++ partsText parts) ++ [p'])
  | .list parts => partsText parts

/-- The value meant. -/
def SValue.denotes : SValue → GValue Bytes
  | .bare w => ⟨[w]⟩
  | .quoted _ _ w => ⟨[w]⟩
  | .group _ _ _ parts => ⟨parts.map (·.1.denotes)⟩
  | .list parts => ⟨parts.map (·.1.denotes)⟩

/-- The spelling is made of bare characters, so that what follows must not continue it. -/
def SValue.isBare : SValue → Bool
  | .bare _ => true
  | .list _ => true
  | _ => false

/-- Legal spellings of values. -/
def SValue.WF (d : Delims) : SValue → Prop
  | .bare w => w ≠ [] ∧ ∀ c ∈ w, Ordinary d c ∧ ¬ Separator d c
  | .quoted q q' w => q ∈ d.quotes ∧ q' ∈ d.quotes ∧ ∀ c ∈ w, c ∉ d.quotes
  | .group p p' lead parts =>
    p ∈ d.parens ∧ p' ∈ d.parens ∧ (∀ c ∈ lead, Separator d c) ∧ PartsWF d parts
  | .list parts =>
    PartsWF d parts ∧ (∀ x ∈ parts, ∃ w, x.1 = .bare w) ∧ (∀ c ∈ partsText parts, Ordinary d c) ∧
      parts ≠ [] ∧ ∃ c ∈ partsText parts, Separator d c

/-- A spelling of an argument, with the white space in front of it. -/
inductive SItem where
  /-- a positional argument -/
  | positional (ws : Bytes) (v : SValue)
  /-- a named argument: key, white space, `=`, white space, value -/
  | named (ws : Bytes) (key : SValue) (ws1 ws2 : Bytes) (v : SValue)

/-- All characters are white space. -/
def Blank (d : Delims) (ws : Bytes) : Prop := ∀ c ∈ ws, c ∈ d.spaces

/-- The spelling. -/
def SItem.text : SItem → Bytes
  | .positional ws v => ws ++ v.text
  | .named ws k ws1 ws2 v => ws ++ (k.text ++ (ws1 ++ (61 :: (ws2 ++ v.text))))

/-- White space is needed between two bare words, and only there. -/
def Separated (prevBare : Bool) (ws : Bytes) (next : SValue) : Prop :=
  prevBare = true → next.isBare = true → ws ≠ []

/-- The keys of named arguments: simple values. -/
inductive IsSimple : SValue → Bytes → Prop
  | bare {w : Bytes} : IsSimple (.bare w) w
  | quoted {q q' : Byte} {w : Bytes} : IsSimple (.quoted q q' w) w

/-- Legal spellings of argument lists; `prevBare` says whether the word in front is bare. -/
inductive ItemsWF (d : Delims) : Bool → List SItem → Prop
  | nil {b : Bool} : ItemsWF d b []
  | positional {b : Bool} {ws : Bytes} {v : SValue} {rest : List SItem} :
      Blank d ws → v.WF d → Separated b ws v → ItemsWF d v.isBare rest →
      ItemsWF d b (.positional ws v :: rest)
  | named {b : Bool} {ws ws1 ws2 : Bytes} {k v : SValue} {w : Bytes} {rest : List SItem} :
      Blank d ws → Blank d ws1 → Blank d ws2 → k.WF d → IsSimple k w → v.WF d →
      Separated b ws k → ItemsWF d v.isBare rest →
      ItemsWF d b (.named ws k ws1 ws2 v :: rest)

/-- The positional arguments meant, in order. -/
def positionals : List SItem → List (GValue Bytes)
  | [] => []
  | .positional _ v :: rest => v.denotes :: positionals rest
  | .named _ _ _ _ _ :: rest => positionals rest

/-- The text of a simple spelling. -/
def SValue.simpleText : SValue → Bytes
  | .bare w => w
  | .quoted _ _ w => w
  | _ => []

/-- The named arguments meant, in order. -/
def nameds : List SItem → List (GNamed Bytes)
  | [] => []
  | .positional _ _ :: rest => nameds rest
  | .named _ k _ _ v :: rest => ⟨k.simpleText, v.denotes⟩ :: nameds rest

/-- A spelling of a command. -/
structure SCommand where
  lead : Bytes
  name : SValue
  items : List SItem
  trail : Bytes

/-- The command line. -/
def SCommand.text (c : SCommand) : Bytes :=
  c.lead ++ (c.name.text ++ ((c.items.map SItem.text).flatten ++ c.trail))

/-- The command meant. -/
def SCommand.denotes (c : SCommand) : GInput Bytes :=
  ⟨c.name.simpleText, positionals c.items, nameds c.items⟩

/-- Legal spellings of commands. -/
structure SCommand.WF (d : Delims) (c : SCommand) : Prop where
  lead : Blank d c.lead
  name : c.name.WF d
  simple : ∃ w, IsSimple c.name w
  items : ItemsWF d c.name.isBare c.items
  trail : Blank d c.trail

/-! ## One canonical spelling

Everything is quoted with the same quote; compound values are put in parentheses. -/

/-- A value, quoted. -/
def quoteValue (q p p' sp : Byte) (v : GValue Bytes) : Bytes :=
  match v.subvalues with
  | [w] => q :: (w ++ [q])
  | ws => p :: ((ws.map (fun w => q :: (w ++ [q, sp]))).flatten ++ [p'])

/-- A command line for the command `i`. -/
def render (q p p' sp : Byte) (i : GInput Bytes) : Bytes :=
  (q :: (i.name ++ [q])) ++
    ((i.arguments.map (fun v => sp :: quoteValue q p p' sp v)).flatten ++
     (i.namedArguments.map (fun n => sp :: ((q :: (n.key ++ [q])) ++ 61 :: quoteValue q p p' sp n.value))).flatten)

/-- Texts that can be spelled: no quotes; no parentheses inside compound values. -/
def Spellable (d : Delims) (v : GValue Bytes) : Prop :=
  (∀ w ∈ v.subvalues, ∀ c ∈ w, c ∉ d.quotes) ∧
  (v.subvalues.length ≠ 1 → ∀ w ∈ v.subvalues, ∀ c ∈ w, c ∉ d.parens)

/-- Commands that can be spelled. -/
structure SpellableInput (d : Delims) (i : GInput Bytes) : Prop where
  name : ∀ c ∈ i.name, c ∉ d.quotes
  args : ∀ v ∈ i.arguments, Spellable d v
  keys : ∀ n ∈ i.namedArguments, ∀ c ∈ n.key, c ∉ d.quotes
  vals : ∀ n ∈ i.namedArguments, Spellable d n.value

/-- No quote characters in keys and in the sub-values of compound values. -/
def QuoteFree (d : Delims) (i : GInput Bytes) : Prop :=
  (∀ v ∈ i.arguments, ∀ w ∈ v.subvalues, ∀ c ∈ w, c ∉ d.quotes) ∧
  (∀ n ∈ i.namedArguments, (∀ c ∈ n.key, c ∉ d.quotes) ∧ ∀ w ∈ n.value.subvalues, ∀ c ∈ w, c ∉ d.quotes)

end Coil.Spec
