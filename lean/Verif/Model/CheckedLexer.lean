import Verif.Model.Assert
import Verif.Model.Lexer

/-!
# The lexer in builds with assertions

The functions of `Model/Lexer.lean` once more, with the assertions of `StringView::substr` and
`StringView::operator[]`. Simplifications: the views handed in have a non-null `m_str`, as their own constructor asserts; the
assertions of `Optional` and `Vector` in `parse(Vector<Token>)` (DefaultLexer.cpp 202, 238, 241, 254) are left out with the
indices they guard.
-/

namespace Coil

/-- `StringView::substr` with its assertions (StringView.cpp 35-41); `offset + length` is a `size_t`. -/
def View.substrC (v : View) (offset length : Nat) : Res View := do
  assertThat (offset ≤ v.len)
  assertThat (length ≤ v.len)
  assertThat ((offset + length) % 2 ^ 64 ≤ v.len)
  .ok (v.substr offset length)

/-- The loop of `tokenize` (DefaultLexer.cpp 138-190). In the loops `scan` the index is below the length wherever it is used. -/
def tokLoopC (cfg : LexCfg) (s : Bytes) : Nat → Nat → List Token → Res (Except Bytes (List Token))
  | 0, _, _ => .diverge
  | fuel + 1, i, toks =>
    if i < s.length then
      let i := scan s (cfg.isType .space) i
      if i ≥ s.length then .ok (.ok toks)
      else do
        let tokenBegin := i
        let c ← readC s i
        match cfg.getCharType c with
        | .string => do
          let (i, type) := scanWord cfg s (i + 1) .string
          let v ← (⟨0, s.length⟩ : View).substrC tokenBegin (sub64 i tokenBegin)
          tokLoopC cfg s fuel ((i - 1) + 1) (toks ++ [⟨type, v⟩])
        | .assignment => do
          let v ← (⟨0, s.length⟩ : View).substrC i 1
          tokLoopC cfg s fuel (i + 1) (toks ++ [⟨.assignment, v⟩])
        | .quote =>
          let i := scan s (fun c => !cfg.isType .quote c) (i + 1)
          if i ≥ s.length then do
            let q ← readC s tokenBegin
            .ok (.error (errQuote q))
          else do
            let v ← (⟨0, s.length⟩ : View).substrC (tokenBegin + 1) (sub64 (sub64 i tokenBegin) 1)
            tokLoopC cfg s fuel (i + 1) (toks ++ [⟨.string, v⟩])
        | .group =>
          let i := scan s (fun c => !cfg.isType .group c) (i + 1)
          if i ≥ s.length then do
            let q ← readC s tokenBegin
            .ok (.error (errGroup q))
          else do
            let v ← (⟨0, s.length⟩ : View).substrC (tokenBegin + 1) (sub64 (sub64 i tokenBegin) 1)
            tokLoopC cfg s fuel (i + 1) (toks ++ [⟨.groupString, v⟩])
        | .space => .ok (.error errInternal)
    else .ok (.ok toks)

/-- `DefaultLexer::tokenize` (DefaultLexer.cpp 134-193). -/
def tokenizeC (cfg : LexCfg) (s : Bytes) : Res (Except Bytes (List Token)) :=
  tokLoopC cfg s (s.length + 1) 0 []

/-- Whether a piece that starts with `first` loses its first and last character (DefaultLexer.cpp 114). -/
def strippedC (cfg : LexCfg) (s : Bytes) (first : Byte) (stringEnd : Nat) : Res Bool :=
  if cfg.isQuote first then do
    let last ← readC s (sub64 stringEnd 1)
    .ok (cfg.isQuote last)
  else .ok false

/-- The loop of `splitGroup` (DefaultLexer.cpp 95-121). -/
def splitLoopC (cfg : LexCfg) (s : Bytes) (v : View) : Nat → Nat → List View → Res (List View)
  | 0, _, _ => .diverge
  | fuel + 1, i, result =>
    if i < s.length then
      let i := scan s cfg.isGroupSeparator i
      if i ≥ s.length then .ok result
      else do
        let stringBegin := i
        let i := scanPiece cfg s i
        let stringEnd := i
        let first ← readC s stringBegin
        let stripped ← strippedC cfg s first stringEnd
        let stringBegin' := if stripped then stringBegin + 1 else stringBegin
        let stringEnd' := if stripped then sub64 stringEnd 1 else stringEnd
        let w ← v.substrC stringBegin' (sub64 stringEnd' stringBegin')
        splitLoopC cfg s v fuel (i + 1) (result ++ [w])
    else .ok result

/-- `DefaultLexer::splitGroup` (DefaultLexer.cpp 91-124). -/
def splitGroupC (cfg : LexCfg) (mem : Bytes) (v : View) : Res (List View) := do
  let s ← v.read mem
  splitLoopC cfg s v (s.length + 1) 0 []

/-- `DefaultLexer::createValue` (DefaultLexer.cpp 126-132). -/
def createValueC (cfg : LexCfg) (mem : Bytes) (t : Token) : Res (GValue View) :=
  if t.type = .groupString then do
    let vs ← splitGroupC cfg mem t.value
    .ok ⟨vs⟩
  else .ok ⟨[t.value]⟩

/-- The lambda `addCurrentTokens` (DefaultLexer.cpp 234-250). -/
def addCurrentC (cfg : LexCfg) (mem : Bytes) (st : ParseSt) (secondary : Option Token) : Res ParseSt :=
  match st.primary with
  | none => .ok st
  | some p =>
    match secondary with
    | some t => do
      let v ← createValueC cfg mem t
      .ok { st with
        primary := none
        input := { st.input with namedArguments := st.input.namedArguments ++ [⟨p.value, v⟩] } }
    | none => do
      let v ← createValueC cfg mem p
      .ok { st with
        primary := none
        input := { st.input with arguments := st.input.arguments ++ [v] } }

/-- One iteration of the loop in `parse(Vector<Token>)` (DefaultLexer.cpp 254-285). -/
def parseStepC (cfg : LexCfg) (mem : Bytes) (st : ParseSt) (token : Token) : Res (Except Bytes ParseSt) :=
  match token.type with
  | .assignment =>
    if st.primary.isNone then .ok (.error errNoName)
    else if st.wantSecondary then .ok (.error errFoundAssign)
    else .ok (.ok { st with wantSecondary := true })
  | _ =>
    if st.wantSecondary then
      if st.primary.isNone then .ok (.error errInternal)
      else do
        let st ← addCurrentC cfg mem st (some token)
        .ok (.ok { st with wantSecondary := false })
    else do
      let st ← (if st.primary.isSome then addCurrentC cfg mem st none else .ok st)
      .ok (.ok { st with primary := some token, wantSecondary := false })

/-- The loop and the code after it (DefaultLexer.cpp 252-293). -/
def parseLoopC (cfg : LexCfg) (mem : Bytes) : List Token → ParseSt → Res (Except Bytes (GInput View))
  | [], st =>
    if st.wantSecondary then .ok (.error errFoundEnd)
    else do
      let st ← addCurrentC cfg mem st none
      .ok (.ok st.input)
  | t :: ts, st => do
    match ← parseStepC cfg mem st t with
    | .error e => .ok (.error e)
    | .ok st => parseLoopC cfg mem ts st

/-- `DefaultLexer::parse(Vector<Token>)` (DefaultLexer.cpp 195-294). -/
def parseTokensC (cfg : LexCfg) (mem : Bytes) (tokens : List Token) : Res (Except Bytes (GInput View)) :=
  match tokens with
  | [] => .ok (.ok ⟨⟨0, 0⟩, [], []⟩)
  | first :: rest =>
    if first.type ≠ .string then do
      let text ← first.value.read mem
      .ok (.error (errBeginning text))
    else parseLoopC cfg mem rest ⟨none, false, ⟨first.value, [], []⟩⟩

/-- `DefaultLexer::parse(StringView)` (DefaultLexer.cpp 45-52). -/
def lexParseC (cfg : LexCfg) (s : Bytes) : Res (Except Bytes (GInput View)) := do
  match ← tokenizeC cfg s with
  | .error e => .ok (.error e)
  | .ok tokens => parseTokensC cfg s tokens

end Coil
