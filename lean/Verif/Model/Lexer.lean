import Verif.Model.Basic

/-!
# `coil::DefaultLexer` (src/DefaultLexer.cpp, include/coil/detail/DefaultLexer.h)
-/

namespace Coil

/-- A `coil::StringView` (include/coil/detail/StringView.h) into a fixed text:
`off` is the distance of `m_str` from the start of that text and `len` is `m_length`.
Simplification: views into other memory do not occur in the lexer. -/
structure View where
  off : Nat
  len : Nat
  deriving DecidableEq, Repr

/-- The view lies inside a text of `n` bytes, so that reading it is defined. -/
def View.Valid (v : View) (n : Nat) : Prop := v.off + v.len ≤ n

instance (v : View) (n : Nat) : Decidable (v.Valid n) := by unfold View.Valid; infer_instance

/-- Reading all the characters of a view of the text `mem`. -/
def View.read (mem : Bytes) (v : View) : Res Bytes :=
  if v.off + v.len ≤ mem.length then .ok ((mem.drop v.off).take v.len) else .ub .oobRead

/-- `StringView::substr` (src/StringView.cpp 35-41). The asserts are off. -/
def View.substr (v : View) (offset length : Nat) : View := ⟨v.off + offset, length⟩

/-- The constructor arguments of `DefaultLexer` (DefaultLexer.h 22, DefaultLexer.cpp 40-43)
and whether `char` is signed on the platform. -/
structure LexCfg where
  parens : Bytes
  quotes : Bytes
  seps : Bytes
  spaces : Bytes
  charSigned : Bool

/-- `DefaultLexer()` with the default arguments (DefaultLexer.h 22). -/
def LexCfg.default (charSigned : Bool) : LexCfg where
  parens := lit "()"
  quotes := lit "'\""
  seps := lit ",;|"
  spaces := lit " \t\n\r"
  charSigned := charSigned

/-- `*it == value` inside `coil::find` (include/coil/detail/Algorithm.h 6-13) with
`*it` a `char` and `value` an `unsigned char`: both are promoted to `int`, so a signed
`char` with the top bit set is negative and never equal. -/
def charEq (signed : Bool) (e : Byte) (c : Byte) : Bool :=
  if signed then decide (e < 128) && e == c else e == c

/-- `coil::find(set.begin(), set.end(), c) != set.end()` (Algorithm.h 6-13). -/
def findChar (signed : Bool) (set : Bytes) (c : Byte) : Bool := set.any (fun e => charEq signed e c)

/-- `DefaultLexer::isGroupChar` (DefaultLexer.cpp 54-57). -/
def LexCfg.isGroupChar (cfg : LexCfg) (c : Byte) : Bool := findChar cfg.charSigned cfg.parens c

/-- `DefaultLexer::isQuote` (DefaultLexer.cpp 59-62). -/
def LexCfg.isQuote (cfg : LexCfg) (c : Byte) : Bool := findChar cfg.charSigned cfg.quotes c

/-- `DefaultLexer::isSpace` (DefaultLexer.cpp 72-75). -/
def LexCfg.isSpace (cfg : LexCfg) (c : Byte) : Bool := findChar cfg.charSigned cfg.spaces c

/-- `DefaultLexer::isGroupSeparator` (DefaultLexer.cpp 64-70). -/
def LexCfg.isGroupSeparator (cfg : LexCfg) (c : Byte) : Bool :=
  if cfg.isSpace c then true else findChar cfg.charSigned cfg.seps c

/-- `DefaultLexer::CharType` (DefaultLexer.cpp 23-30). -/
inductive CharType where
  | group | quote | space | string | assignment
  deriving DecidableEq, Repr

/-- `DefaultLexer::getCharType` (DefaultLexer.cpp 77-89). -/
def LexCfg.getCharType (cfg : LexCfg) (c : Byte) : CharType :=
  if c = 61 then .assignment
  else if cfg.isSpace c then .space
  else if cfg.isGroupChar c then .group
  else if cfg.isQuote c then .quote
  else .string

/-- The comparison `getCharType(c) == t`. -/
def LexCfg.isType (cfg : LexCfg) (t : CharType) (c : Byte) : Bool := decide (cfg.getCharType c = t)

/-- `TokenType` (DefaultLexer.cpp 15-20). -/
inductive TokenType where
  | string | groupString | assignment
  deriving DecidableEq, Repr

/-- `DefaultLexer::Token` (DefaultLexer.cpp 32-38). -/
structure Token where
  type : TokenType
  value : View
  deriving DecidableEq, Repr

/-- The loop `while ((i < str.length()) && p(str[i])) i++;` on the characters that
remain from position `i` on. -/
def scanFrom (p : Byte → Bool) : Bytes → Nat → Nat
  | [], i => i
  | c :: rest, i => if p c then scanFrom p rest (i + 1) else i

/-- `while ((i < str.length()) && p(str[i])) i++;` started at `i`. -/
def scan (s : Bytes) (p : Byte → Bool) (i : Nat) : Nat := scanFrom p (s.drop i) i

/-- The loop of the `CharType::String` case (DefaultLexer.cpp 153-158): advances over
`String` characters and switches the token type when it meets a group separator. -/
def scanWordFrom (cfg : LexCfg) : Bytes → Nat → TokenType → Nat × TokenType
  | [], i, t => (i, t)
  | c :: rest, i, t =>
    if cfg.getCharType c = .string then
      scanWordFrom cfg rest (i + 1) (if cfg.isGroupSeparator c then .groupString else t)
    else (i, t)

/-- The same loop started at position `i`. -/
def scanWord (cfg : LexCfg) (s : Bytes) (i : Nat) (t : TokenType) : Nat × TokenType :=
  scanWordFrom cfg (s.drop i) i t

/-- `sprintf("Token '%c' doesn't have a corresponding opening/closing quote", c)`
(DefaultLexer.cpp 173). `%c` also prints NUL. -/
def errQuote (c : Byte) : Bytes :=
  lit "Token '" ++ [c] ++ lit "' doesn't have a corresponding opening/closing quote"

/-- `sprintf("Token '%c' doesn't have a corresponding opening/closing token", c)`
(DefaultLexer.cpp 183). -/
def errGroup (c : Byte) : Bytes :=
  lit "Token '" ++ [c] ++ lit "' doesn't have a corresponding opening/closing token"

/-- The `"Internal error"` results (DefaultLexer.cpp 188, 276). -/
def errInternal : Bytes := lit "Internal error"

/-- The loop of `DefaultLexer::tokenize` (DefaultLexer.cpp 138-190), at the head of the
`for` statement with index `i` and the tokens `toks` pushed so far. `fuel` bounds the
number of iterations; running out of it stands for an endless loop. -/
def tokLoop (cfg : LexCfg) (s : Bytes) : Nat → Nat → List Token → Res (Except Bytes (List Token))
  | 0, _, _ => .diverge
  | fuel + 1, i, toks =>
    if i < s.length then
      let i := scan s (cfg.isType .space) i
      if i ≥ s.length then .ok (.ok toks)
      else do
        let tokenBegin := i
        let c ← readAt s i
        match cfg.getCharType c with
        | .string =>
          let (i, type) := scanWord cfg s (i + 1) .string
          -- `i--` at the end of the case and the `i++` of the loop
          tokLoop cfg s fuel ((i - 1) + 1)
            (toks ++ [⟨type, (⟨0, s.length⟩ : View).substr tokenBegin (sub64 i tokenBegin)⟩])
        | .assignment =>
          tokLoop cfg s fuel (i + 1) (toks ++ [⟨.assignment, (⟨0, s.length⟩ : View).substr i 1⟩])
        | .quote =>
          let i := scan s (fun c => !cfg.isType .quote c) (i + 1)
          if i ≥ s.length then do
            let q ← readAt s tokenBegin
            .ok (.error (errQuote q))
          else
            tokLoop cfg s fuel (i + 1)
              (toks ++ [⟨.string, (⟨0, s.length⟩ : View).substr (tokenBegin + 1) (sub64 (sub64 i tokenBegin) 1)⟩])
        | .group =>
          let i := scan s (fun c => !cfg.isType .group c) (i + 1)
          if i ≥ s.length then do
            let q ← readAt s tokenBegin
            .ok (.error (errGroup q))
          else
            tokLoop cfg s fuel (i + 1)
              (toks ++ [⟨.groupString, (⟨0, s.length⟩ : View).substr (tokenBegin + 1) (sub64 (sub64 i tokenBegin) 1)⟩])
        | .space => .ok (.error errInternal)
    else .ok (.ok toks)

/-- `DefaultLexer::tokenize` (DefaultLexer.cpp 134-193). -/
def tokenize (cfg : LexCfg) (s : Bytes) : Res (Except Bytes (List Token)) :=
  tokLoop cfg s (s.length + 1) 0 []

/-- The inner loop of `splitGroup` (DefaultLexer.cpp 104-111): advances to the end of a
piece; separators inside quotes do not end it. -/
def scanPieceFrom (cfg : LexCfg) : Bytes → Nat → Bool → Nat
  | [], i, _ => i
  | c :: rest, i, inQuotes =>
    if inQuotes || !cfg.isGroupSeparator c then
      scanPieceFrom cfg rest (i + 1) (if cfg.isQuote c then !inQuotes else inQuotes)
    else i

/-- The same loop started at position `i`. -/
def scanPiece (cfg : LexCfg) (s : Bytes) (i : Nat) : Nat := scanPieceFrom cfg (s.drop i) i false

/-- The loop of `DefaultLexer::splitGroup` (DefaultLexer.cpp 95-121) for the group text
`s`, which is the content of the view `v`. -/
def splitLoop (cfg : LexCfg) (s : Bytes) (v : View) : Nat → Nat → List View → Res (List View)
  | 0, _, _ => .diverge
  | fuel + 1, i, result =>
    if i < s.length then
      let i := scan s cfg.isGroupSeparator i
      if i ≥ s.length then .ok result
      else do
        let stringBegin := i
        let i := scanPiece cfg s i
        let stringEnd := i
        let first ← readAt s stringBegin
        -- `str[stringEnd - 1]` is only read when the first test succeeds
        let stripped ←
          (if cfg.isQuote first then do
            let last ← readAt s (sub64 stringEnd 1)
            .ok (cfg.isQuote last)
          else .ok false : Res Bool)
        let stringBegin' := if stripped then stringBegin + 1 else stringBegin
        let stringEnd' := if stripped then sub64 stringEnd 1 else stringEnd
        splitLoop cfg s v fuel (i + 1) (result ++ [v.substr stringBegin' (sub64 stringEnd' stringBegin')])
    else .ok result

/-- `DefaultLexer::splitGroup` (DefaultLexer.cpp 91-124) on the view `v` of the text `mem`. -/
def splitGroup (cfg : LexCfg) (mem : Bytes) (v : View) : Res (List View) := do
  let s ← v.read mem
  splitLoop cfg s v (s.length + 1) 0 []

/-- `coil::Value` (include/coil/detail/Value.h 15-34): the list of its sub-values. `τ` is the
type of texts: views while lexing, byte sequences afterwards. -/
structure GValue (τ : Type) where
  subvalues : List τ
  deriving DecidableEq, Repr

/-- `coil::NamedValue` (Value.h 36-43). -/
structure GNamed (τ : Type) where
  key : τ
  value : GValue τ
  deriving DecidableEq, Repr

/-- `coil::ExecutionInput` (include/coil/detail/ExecutionInput.h). -/
structure GInput (τ : Type) where
  name : τ
  arguments : List (GValue τ)
  namedArguments : List (GNamed τ)
  deriving DecidableEq, Repr

/-- `DefaultLexer::createValue` (DefaultLexer.cpp 126-132). -/
def createValue (cfg : LexCfg) (mem : Bytes) (t : Token) : Res (GValue View) :=
  if t.type = .groupString then do
    let vs ← splitGroup cfg mem t.value
    .ok ⟨vs⟩
  else .ok ⟨[t.value]⟩

/-- `"Unexpected token '=': no name for the named argument is provided"` (DefaultLexer.cpp 260). -/
def errNoName : Bytes := lit "Unexpected token '=': no name for the named argument is provided"
/-- `"Expected an argument value, found '='"` (DefaultLexer.cpp 262). -/
def errFoundAssign : Bytes := lit "Expected an argument value, found '='"
/-- `"Expected an argument value, found end of string"` (DefaultLexer.cpp 289). -/
def errFoundEnd : Bytes := lit "Expected an argument value, found end of string"
/-- `sprintf("Unexpected token '%.*s' at the beginning of the expression", ...)` (DefaultLexer.cpp 204). -/
def errBeginning (t : Bytes) : Bytes :=
  lit "Unexpected token '" ++ cstr t ++ lit "' at the beginning of the expression"

/-- State of the loop in `parse(Vector<Token>)`: `ArgTokens` and `nextTokenType`
(DefaultLexer.cpp 208-232). The indices into `tokens` are replaced by the tokens
themselves. `secondary` is set and consumed within one iteration. -/
structure ParseSt where
  primary : Option Token
  wantSecondary : Bool
  input : GInput View

/-- The lambda `addCurrentTokens` (DefaultLexer.cpp 234-250), with the secondary token as argument. -/
def addCurrent (cfg : LexCfg) (mem : Bytes) (st : ParseSt) (secondary : Option Token) : Res ParseSt :=
  match st.primary with
  | none => .ok st
  | some p =>
    match secondary with
    | some t => do
      let v ← createValue cfg mem t
      .ok { st with
        primary := none
        input := { st.input with namedArguments := st.input.namedArguments ++ [⟨p.value, v⟩] } }
    | none => do
      let v ← createValue cfg mem p
      .ok { st with
        primary := none
        input := { st.input with arguments := st.input.arguments ++ [v] } }

/-- One iteration of the loop in `parse(Vector<Token>)` (DefaultLexer.cpp 254-285). -/
def parseStep (cfg : LexCfg) (mem : Bytes) (st : ParseSt) (token : Token) : Res (Except Bytes ParseSt) :=
  match token.type with
  | .assignment =>
    if st.primary.isNone then .ok (.error errNoName)
    else if st.wantSecondary then .ok (.error errFoundAssign)
    else .ok (.ok { st with wantSecondary := true })
  | _ =>
    if st.wantSecondary then
      if st.primary.isNone then .ok (.error errInternal)
      else do
        let st ← addCurrent cfg mem st (some token)
        .ok (.ok { st with wantSecondary := false })
    else do
      let st ← (if st.primary.isSome then addCurrent cfg mem st none else .ok st)
      .ok (.ok { st with primary := some token, wantSecondary := false })

/-- The loop and the code after it (DefaultLexer.cpp 252-293). -/
def parseLoop (cfg : LexCfg) (mem : Bytes) : List Token → ParseSt → Res (Except Bytes (GInput View))
  | [], st =>
    if st.wantSecondary then .ok (.error errFoundEnd)
    else do
      let st ← addCurrent cfg mem st none
      .ok (.ok st.input)
  | t :: ts, st => do
    match ← parseStep cfg mem st t with
    | .error e => .ok (.error e)
    | .ok st => parseLoop cfg mem ts st

/-- `DefaultLexer::parse(Vector<Token>)` (DefaultLexer.cpp 195-294). The name of the empty
input is a default `StringView`, an empty text; it is represented by an empty view. -/
def parseTokens (cfg : LexCfg) (mem : Bytes) (tokens : List Token) : Res (Except Bytes (GInput View)) :=
  match tokens with
  | [] => .ok (.ok ⟨⟨0, 0⟩, [], []⟩)
  | first :: rest =>
    if first.type ≠ .string then do
      let text ← first.value.read mem
      .ok (.error (errBeginning text))
    else parseLoop cfg mem rest ⟨none, false, ⟨first.value, [], []⟩⟩

/-- `DefaultLexer::parse(StringView)` (DefaultLexer.cpp 45-52). -/
def lexParse (cfg : LexCfg) (s : Bytes) : Res (Except Bytes (GInput View)) := do
  match ← tokenize cfg s with
  | .error e => .ok (.error e)
  | .ok tokens => parseTokens cfg s tokens

/-- Reading every view of a list. -/
def readViews (mem : Bytes) : List View → Res (List Bytes)
  | [] => .ok []
  | v :: vs => do
    let b ← v.read mem
    let bs ← readViews mem vs
    .ok (b :: bs)

/-- A value as the bytes its views denote. -/
def GValue.read (mem : Bytes) (v : GValue View) : Res (GValue Bytes) := do
  let s ← readViews mem v.subvalues
  .ok ⟨s⟩

/-- All positional arguments as bytes. -/
def readArgs (mem : Bytes) : List (GValue View) → Res (List (GValue Bytes))
  | [] => .ok []
  | v :: vs => do
    let b ← v.read mem
    let bs ← readArgs mem vs
    .ok (b :: bs)

/-- All named arguments as bytes. -/
def readNamed (mem : Bytes) : List (GNamed View) → Res (List (GNamed Bytes))
  | [] => .ok []
  | v :: vs => do
    let k ← v.key.read mem
    let b ← v.value.read mem
    let bs ← readNamed mem vs
    .ok (⟨k, b⟩ :: bs)

/-- The parsed input with every view replaced by the text it denotes. Not a function of
the library: it is what a reader of the views sees. A view outside the text makes it `ub`. -/
def GInput.read (mem : Bytes) (i : GInput View) : Res (GInput Bytes) := do
  let n ← i.name.read mem
  let a ← readArgs mem i.arguments
  let na ← readNamed mem i.namedArguments
  .ok ⟨n, a, na⟩

/-- `parse` followed by reading the result. -/
def lexRead (cfg : LexCfg) (s : Bytes) : Res (Except Bytes (GInput Bytes)) := do
  match ← lexParse cfg s with
  | .error e => .ok (.error e)
  | .ok i => do
    let r ← i.read s
    .ok (.ok r)

end Coil
