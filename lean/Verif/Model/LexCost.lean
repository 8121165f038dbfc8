import Verif.Model.Lexer

/-!
# What the lexer reads

The functions of `Model/Lexer.lean` once more, with the positions of all characters of the text that they read with `str[i]`
(DefaultLexer.cpp 91-194), in this order. Simplification: characters that `sprintf` reads to print the first token into an error message
(DefaultLexer.cpp 204) do not count.
-/

namespace Coil

/-- The reads of `while ((i < str.length()) && p(str[i])) i++;` on the characters from position `i` on. -/
def scanReads (p : Byte → Bool) : Bytes → Nat → List Nat
  | [], _ => []
  | c :: rest, i => if p c then i :: scanReads p rest (i + 1) else [i]

/-- The reads of the loop of the `CharType::String` case (DefaultLexer.cpp 153-158). -/
def wordReads (cfg : LexCfg) : Bytes → Nat → List Nat
  | [], _ => []
  | c :: rest, i => if cfg.getCharType c = .string then i :: i :: wordReads cfg rest (i + 1) else [i]

/-- The reads of the inner loop of `splitGroup` (DefaultLexer.cpp 106-111), where `shouldSkipChar` gets the character as an argument. -/
def pieceReads (cfg : LexCfg) : Bytes → Nat → Bool → List Nat
  | [], _, _ => []
  | c :: rest, i, inQuotes =>
    if inQuotes || !cfg.isGroupSeparator c then
      i :: i :: pieceReads cfg rest (i + 1) (if cfg.isQuote c then !inQuotes else inQuotes)
    else [i]

/-- The loop of `tokenize` (DefaultLexer.cpp 138-190). -/
def tokLoopR (cfg : LexCfg) (s : Bytes) : Nat → Nat → List Token → List Nat → Res (Except Bytes (List Token) × List Nat)
  | 0, _, _, _ => .diverge
  | fuel + 1, i, toks, tr =>
    if i < s.length then
      let tr := tr ++ scanReads (cfg.isType .space) (s.drop i) i
      let i := scan s (cfg.isType .space) i
      if i ≥ s.length then .ok (.ok toks, tr)
      else do
        let tokenBegin := i
        let c ← readAt s i
        let tr := tr ++ [i]
        match cfg.getCharType c with
        | .string =>
          let tr := tr ++ wordReads cfg (s.drop (i + 1)) (i + 1)
          let (i, type) := scanWord cfg s (i + 1) .string
          tokLoopR cfg s fuel ((i - 1) + 1)
            (toks ++ [⟨type, (⟨0, s.length⟩ : View).substr tokenBegin (sub64 i tokenBegin)⟩]) tr
        | .assignment =>
          tokLoopR cfg s fuel (i + 1) (toks ++ [⟨.assignment, (⟨0, s.length⟩ : View).substr i 1⟩]) tr
        | .quote =>
          let tr := tr ++ scanReads (fun c => !cfg.isType .quote c) (s.drop (i + 1)) (i + 1)
          let i := scan s (fun c => !cfg.isType .quote c) (i + 1)
          if i ≥ s.length then do
            let q ← readAt s tokenBegin
            .ok (.error (errQuote q), tr ++ [tokenBegin])
          else
            tokLoopR cfg s fuel (i + 1)
              (toks ++ [⟨.string, (⟨0, s.length⟩ : View).substr (tokenBegin + 1) (sub64 (sub64 i tokenBegin) 1)⟩]) tr
        | .group =>
          let tr := tr ++ scanReads (fun c => !cfg.isType .group c) (s.drop (i + 1)) (i + 1)
          let i := scan s (fun c => !cfg.isType .group c) (i + 1)
          if i ≥ s.length then do
            let q ← readAt s tokenBegin
            .ok (.error (errGroup q), tr ++ [tokenBegin])
          else
            tokLoopR cfg s fuel (i + 1)
              (toks ++ [⟨.groupString, (⟨0, s.length⟩ : View).substr (tokenBegin + 1) (sub64 (sub64 i tokenBegin) 1)⟩]) tr
        | .space => .ok (.error errInternal, tr)
    else .ok (.ok toks, tr)

/-- `DefaultLexer::tokenize` (DefaultLexer.cpp 134-193). -/
def tokenizeR (cfg : LexCfg) (s : Bytes) : Res (Except Bytes (List Token) × List Nat) :=
  tokLoopR cfg s (s.length + 1) 0 [] []

/-- The loop of `splitGroup` (DefaultLexer.cpp 95-121); the positions are those in the group. -/
def splitLoopR (cfg : LexCfg) (s : Bytes) (v : View) : Nat → Nat → List View → List Nat → Res (List View × List Nat)
  | 0, _, _, _ => .diverge
  | fuel + 1, i, result, tr =>
    if i < s.length then
      let tr := tr ++ scanReads cfg.isGroupSeparator (s.drop i) i
      let i := scan s cfg.isGroupSeparator i
      if i ≥ s.length then .ok (result, tr)
      else do
        let stringBegin := i
        let tr := tr ++ pieceReads cfg (s.drop i) i false
        let i := scanPiece cfg s i
        let stringEnd := i
        let first ← readAt s stringBegin
        let tr := tr ++ [stringBegin]
        let (stripped, tr) ←
          (if cfg.isQuote first then do
            let last ← readAt s (sub64 stringEnd 1)
            .ok (cfg.isQuote last, tr ++ [sub64 stringEnd 1])
          else .ok (false, tr) : Res (Bool × List Nat))
        let stringBegin' := if stripped then stringBegin + 1 else stringBegin
        let stringEnd' := if stripped then sub64 stringEnd 1 else stringEnd
        splitLoopR cfg s v fuel (i + 1) (result ++ [v.substr stringBegin' (sub64 stringEnd' stringBegin')]) tr
    else .ok (result, tr)

/-- `DefaultLexer::createValue` and `splitGroup` (DefaultLexer.cpp 91-132). -/
def createValueR (cfg : LexCfg) (mem : Bytes) (t : Token) (tr : List Nat) : Res (GValue View × List Nat) :=
  if t.type = .groupString then do
    let s ← t.value.read mem
    let (vs, reads) ← splitLoopR cfg s t.value (s.length + 1) 0 [] []
    .ok (⟨vs⟩, tr ++ reads.map (t.value.off + ·))
  else .ok (⟨[t.value]⟩, tr)

/-- The lambda `addCurrentTokens` (DefaultLexer.cpp 234-250). -/
def addCurrentR (cfg : LexCfg) (mem : Bytes) (st : ParseSt) (secondary : Option Token) (tr : List Nat) : Res (ParseSt × List Nat) :=
  match st.primary with
  | none => .ok (st, tr)
  | some p =>
    match secondary with
    | some t => do
      let (v, tr) ← createValueR cfg mem t tr
      .ok ({ st with
        primary := none
        input := { st.input with namedArguments := st.input.namedArguments ++ [⟨p.value, v⟩] } }, tr)
    | none => do
      let (v, tr) ← createValueR cfg mem p tr
      .ok ({ st with
        primary := none
        input := { st.input with arguments := st.input.arguments ++ [v] } }, tr)

/-- One iteration of the loop in `parse(Vector<Token>)` (DefaultLexer.cpp 254-285). -/
def parseStepR (cfg : LexCfg) (mem : Bytes) (st : ParseSt) (token : Token) (tr : List Nat) : Res (Except Bytes ParseSt × List Nat) :=
  match token.type with
  | .assignment =>
    if st.primary.isNone then .ok (.error errNoName, tr)
    else if st.wantSecondary then .ok (.error errFoundAssign, tr)
    else .ok (.ok { st with wantSecondary := true }, tr)
  | _ =>
    if st.wantSecondary then
      if st.primary.isNone then .ok (.error errInternal, tr)
      else do
        let (st, tr) ← addCurrentR cfg mem st (some token) tr
        .ok (.ok { st with wantSecondary := false }, tr)
    else do
      let (st, tr) ← (if st.primary.isSome then addCurrentR cfg mem st none tr else .ok (st, tr))
      .ok (.ok { st with primary := some token, wantSecondary := false }, tr)

/-- The loop and the code after it (DefaultLexer.cpp 252-293). -/
def parseLoopR (cfg : LexCfg) (mem : Bytes) : List Token → ParseSt → List Nat → Res (Except Bytes (GInput View) × List Nat)
  | [], st, tr =>
    if st.wantSecondary then .ok (.error errFoundEnd, tr)
    else do
      let (st, tr) ← addCurrentR cfg mem st none tr
      .ok (.ok st.input, tr)
  | t :: ts, st, tr => do
    match ← parseStepR cfg mem st t tr with
    | (.error e, tr) => .ok (.error e, tr)
    | (.ok st, tr) => parseLoopR cfg mem ts st tr

/-- `DefaultLexer::parse(StringView)` and `parse(Vector<Token>)` (DefaultLexer.cpp 45-52, 195-294). -/
def lexParseR (cfg : LexCfg) (s : Bytes) : Res (Except Bytes (GInput View) × List Nat) := do
  match ← tokenizeR cfg s with
  | (.error e, tr) => .ok (.error e, tr)
  | (.ok [], tr) => .ok (.ok ⟨⟨0, 0⟩, [], []⟩, tr)
  | (.ok (first :: rest), tr) =>
    if first.type ≠ .string then do
      let text ← first.value.read s
      .ok (.error (errBeginning text), tr)
    else parseLoopR cfg s rest ⟨none, false, ⟨first.value, [], []⟩⟩ tr

end Coil
