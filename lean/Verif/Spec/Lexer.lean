import Verif.Model.Lexer

/-!
# Specification of the command syntax

A grammar for command lines, independent of the lexer's loops. Only the result types
`GValue`, `GNamed`, `GInput` and the error texts are shared with the model.
-/

namespace Coil.Spec

/-- The four sets of special characters of a lexer. -/
structure Delims where
  parens : Bytes
  quotes : Bytes
  seps : Bytes
  spaces : Bytes
  deriving DecidableEq

/-- The delimiters a lexer was constructed with. -/
def delims (cfg : LexCfg) : Delims := ⟨cfg.parens, cfg.quotes, cfg.seps, cfg.spaces⟩

/-- The delimiters are ASCII unless `char` is unsigned. -/
structure Ascii (cfg : LexCfg) : Prop where
  ascii : cfg.charSigned = true →
    ∀ c, c ∈ cfg.parens ∨ c ∈ cfg.quotes ∨ c ∈ cfg.seps ∨ c ∈ cfg.spaces → c < 128

/-- A sensible configuration: the sets are disjoint, none contains `=`, and delimiters are
ASCII unless `char` is unsigned. The default configuration is one (see `proper_default`). -/
structure Proper (cfg : LexCfg) : Prop extends Ascii cfg where
  noAssign : (61 : Byte) ∉ cfg.parens ∧ (61 : Byte) ∉ cfg.quotes ∧ (61 : Byte) ∉ cfg.seps ∧
    (61 : Byte) ∉ cfg.spaces
  spaceParen : ∀ c, c ∈ cfg.spaces → c ∉ cfg.parens
  spaceQuote : ∀ c, c ∈ cfg.spaces → c ∉ cfg.quotes
  parenQuote : ∀ c, c ∈ cfg.parens → c ∉ cfg.quotes
  sepQuote : ∀ c, c ∈ cfg.seps → c ∉ cfg.quotes
  sepParen : ∀ c, c ∈ cfg.seps → c ∉ cfg.parens

variable (d : Delims)

/-- Characters that make up bare words. -/
def Ordinary (c : Byte) : Prop :=
  c ≠ 61 ∧ c ∉ d.spaces ∧ c ∉ d.parens ∧ c ∉ d.quotes

/-- Characters that separate the parts of a compound value. -/
def Separator (c : Byte) : Prop := c ∈ d.spaces ∨ c ∈ d.seps

/-- Tokens, as texts. -/
inductive Tok where
  /-- a simple value -/
  | word (text : Bytes)
  /-- a compound value, still unsplit -/
  | compound (text : Bytes)
  /-- `=` -/
  | assign
  deriving DecidableEq, Repr

/-- `s` does not start with a character that would continue a bare word. -/
def NoOrdinaryHead (s : Bytes) : Prop := ∀ c, s.head? = some c → ¬ Ordinary d c

/-- Lexical grammar: `Tokens d s ts` - the text `s` consists of the tokens `ts`. -/
inductive Tokens : Bytes → List Tok → Prop
  | nil : Tokens [] []
  | space {c : Byte} {s : Bytes} {ts : List Tok} :
      c ∈ d.spaces → Tokens s ts → Tokens (c :: s) ts
  | assign {s : Bytes} {ts : List Tok} :
      Tokens s ts → Tokens (61 :: s) (.assign :: ts)
  | quoted {q q' : Byte} {body s : Bytes} {ts : List Tok} :
      q ∈ d.quotes → q' ∈ d.quotes → (∀ c ∈ body, c ∉ d.quotes) →
      Tokens s ts → Tokens (q :: (body ++ q' :: s)) (.word body :: ts)
  | group {p p' : Byte} {body s : Bytes} {ts : List Tok} :
      p ∈ d.parens → p' ∈ d.parens → (∀ c ∈ body, c ∉ d.parens) →
      Tokens s ts → Tokens (p :: (body ++ p' :: s)) (.compound body :: ts)
  | bare {c : Byte} {w s : Bytes} {ts : List Tok} :
      Ordinary d c → (∀ x ∈ w, Ordinary d x) → NoOrdinaryHead d s →
      (∀ x ∈ w, ¬ Separator d x) →
      Tokens s ts → Tokens (c :: (w ++ s)) (.word (c :: w) :: ts)
  | bareList {c x : Byte} {w s : Bytes} {ts : List Tok} :
      Ordinary d c → (∀ x ∈ w, Ordinary d x) → NoOrdinaryHead d s →
      x ∈ w → Separator d x →
      Tokens s ts → Tokens (c :: (w ++ s)) (.compound (c :: w) :: ts)

/-- The text has an opening quote, at a token boundary, that nothing closes. -/
def UnmatchedQuote (s : Bytes) (q : Byte) : Prop :=
  ∃ pre rest ts, s = pre ++ q :: rest ∧ Tokens d pre ts ∧ q ∈ d.quotes ∧ ∀ c ∈ rest, c ∉ d.quotes

/-- The text has an opening parenthesis, at a token boundary, that nothing closes. -/
def UnmatchedParen (s : Bytes) (p : Byte) : Prop :=
  ∃ pre rest ts, s = pre ++ p :: rest ∧ Tokens d pre ts ∧ p ∈ d.parens ∧ ∀ c ∈ rest, c ∉ d.parens

/-- The number of quote characters in a text. -/
def quoteCount (s : Bytes) : Nat := s.countP (fun c => decide (c ∈ d.quotes))

/-- A raw part of a compound value: not empty, does not start with a separator, and every
separator in it is inside quotes (an odd number of quotes precede it). -/
structure RawPart (p : Bytes) : Prop where
  head : ∃ c t, p = c :: t ∧ ¬ Separator d c
  inner : ∀ a c b, p = a ++ c :: b → Separator d c → quoteCount d a % 2 = 1

/-- `Parts d s ps`: the group text `s` is the raw parts `ps` and the separators between and
around them. A part ends at the first separator outside quotes or at the end of the text. -/
inductive Parts : Bytes → List Bytes → Prop
  | nil : Parts [] []
  | sep {c : Byte} {s : Bytes} {ps : List Bytes} : Separator d c → Parts s ps → Parts (c :: s) ps
  | last {p : Bytes} : RawPart d p → Parts p [p]
  | cons {p : Bytes} {c : Byte} {s : Bytes} {ps : List Bytes} :
      RawPart d p → quoteCount d p % 2 = 0 → Separator d c → Parts s ps →
      Parts (p ++ c :: s) (p :: ps)

/-- The sub-value a raw part stands for: surrounding quotes are removed. There is no rule for
a part that is one lone quote character. -/
inductive Unquote : Bytes → Bytes → Prop
  | quoted {q q' : Byte} {body : Bytes} : q ∈ d.quotes → q' ∈ d.quotes →
      Unquote (q :: (body ++ [q'])) body
  | plainHead {c : Byte} {t : Bytes} : c ∉ d.quotes → Unquote (c :: t) (c :: t)
  | plainLast {c : Byte} {t : Bytes} : c ∉ d.quotes → Unquote (t ++ [c]) (t ++ [c])

/-- Two lists related element by element. -/
inductive Forall2 {α β : Type} (R : α → β → Prop) : List α → List β → Prop
  | nil : Forall2 R [] []
  | cons {a : α} {b : β} {as : List α} {bs : List β} : R a b → Forall2 R as bs →
      Forall2 R (a :: as) (b :: bs)

/-- The sub-values of a compound value. -/
def SubValues (s : Bytes) (vs : List Bytes) : Prop :=
  ∃ ps, Parts d s ps ∧ Forall2 (Unquote d) ps vs

/-- Some part of the group text is one lone quote character. -/
def LoneQuote (s : Bytes) : Prop := ∃ ps q, Parts d s ps ∧ q ∈ d.quotes ∧ [q] ∈ ps

/-- The value a token stands for. -/
inductive TokValue : Tok → GValue Bytes → Prop
  | word {w : Bytes} : TokValue (.word w) ⟨[w]⟩
  | compound {g : Bytes} {vs : List Bytes} : SubValues d g vs → TokValue (.compound g) ⟨vs⟩

/-- The raw text of a value token. -/
inductive TokText : Tok → Bytes → Prop
  | word {w : Bytes} : TokText (.word w) w
  | compound {g : Bytes} : TokText (.compound g) g

/-- The arguments of a command: a sequence of values and of `key = value`. -/
inductive Items : List Tok → List (GValue Bytes) → List (GNamed Bytes) → Prop
  | nil : Items [] [] []
  | positional {t : Tok} {v : GValue Bytes} {ts : List Tok} {ps : List (GValue Bytes)}
      {ns : List (GNamed Bytes)} :
      TokValue d t v → Items ts ps ns → Items (t :: ts) (v :: ps) ns
  | named {t t' : Tok} {k : Bytes} {v : GValue Bytes} {ts : List Tok} {ps : List (GValue Bytes)}
      {ns : List (GNamed Bytes)} :
      TokText t k → TokValue d t' v → Items ts ps ns →
      Items (t :: .assign :: t' :: ts) ps (⟨k, v⟩ :: ns)

/-- A command: nothing at all, or a name and arguments. -/
inductive Command : List Tok → GInput Bytes → Prop
  | empty : Command [] ⟨[], [], []⟩
  | cmd {n : Bytes} {ts : List Tok} {ps : List (GValue Bytes)} {ns : List (GNamed Bytes)} :
      Items d ts ps ns → Command (.word n :: ts) ⟨n, ps, ns⟩

/-- Argument lists that are rejected, and the message. -/
inductive BadItems : List Tok → Bytes → Prop
  | noName {ts : List Tok} :
      BadItems (.assign :: ts) (lit "Unexpected token '=': no name for the named argument is provided")
  | twoAssign {t : Tok} {k : Bytes} {ts : List Tok} : TokText t k →
      BadItems (t :: .assign :: .assign :: ts) (lit "Expected an argument value, found '='")
  | noValue {t : Tok} {k : Bytes} : TokText t k →
      BadItems [t, .assign] (lit "Expected an argument value, found end of string")
  | positional {t : Tok} {k : Bytes} {ts : List Tok} {e : Bytes} : TokText t k →
      ts.head? ≠ some .assign → BadItems ts e → BadItems (t :: ts) e
  | named {t t' : Tok} {k k' : Bytes} {ts : List Tok} {e : Bytes} : TokText t k → TokText t' k' →
      BadItems ts e → BadItems (t :: .assign :: t' :: ts) e

/-- Token sequences that are rejected, and the message. -/
inductive BadCommand : List Tok → Bytes → Prop
  | assignFirst {ts : List Tok} : BadCommand (.assign :: ts)
      (lit "Unexpected token '" ++ lit "=" ++ lit "' at the beginning of the expression")
  | compoundFirst {g : Bytes} {ts : List Tok} : BadCommand (.compound g :: ts)
      (lit "Unexpected token '" ++ g.takeWhile (· ≠ 0) ++ lit "' at the beginning of the expression")
  | items {n : Bytes} {ts : List Tok} {e : Bytes} : BadItems ts e → BadCommand (.word n :: ts) e

/-- `s` is a well-formed command line that denotes `i`. -/
def Accepts (s : Bytes) (i : GInput Bytes) : Prop := ∃ ts, Tokens d s ts ∧ Command d ts i

/-- `s` is ill-formed, with this message. -/
def Rejects (s : Bytes) (e : Bytes) : Prop :=
  (∃ ts, Tokens d s ts ∧ BadCommand ts e) ∨
  (∃ q, UnmatchedQuote d s q ∧
    e = lit "Token '" ++ [q] ++ lit "' doesn't have a corresponding opening/closing quote") ∨
  (∃ p, UnmatchedParen d s p ∧
    e = lit "Token '" ++ [p] ++ lit "' doesn't have a corresponding opening/closing token")

/-- Well-formed argument lists before compound values are split; the second list holds the tokens
that stand for values (not the keys). -/
inductive Shape : List Tok → List Tok → Prop
  | nil : Shape [] []
  | positional {t : Tok} {k : Bytes} {ts vs : List Tok} : TokText t k → Shape ts vs →
      Shape (t :: ts) (t :: vs)
  | named {t t' : Tok} {k k' : Bytes} {ts vs : List Tok} : TokText t k → TokText t' k' →
      Shape ts vs → Shape (t :: .assign :: t' :: ts) (t' :: vs)

/-- A well-formed command one of whose compound values has a part that is one lone quote
character, as in `f (")` or `f (a ")`. -/
def LoneQuoteCommand (s : Bytes) : Prop :=
  ∃ n ts vs g, Tokens d s (.word n :: ts) ∧ Shape ts vs ∧ Tok.compound g ∈ vs ∧ LoneQuote d g

/-- The compound value `g` is evaluated as an argument, whether or not the rest of the tokens is well-formed: what comes before
it is, and it is a named value or no `=` follows it. -/
def Evaluated (ts : List Tok) (g : Bytes) : Prop :=
  ∃ pre vs post, Shape pre vs ∧
    ((ts = pre ++ .compound g :: post ∧ post.head? ≠ some .assign) ∨
      ∃ k key, TokText k key ∧ ts = pre ++ k :: .assign :: .compound g :: post)

end Coil.Spec

namespace Coil.Spec

/-- All the views of a parsed input lie inside a text of `n` bytes. -/
structure AllInside (n : Nat) (i : GInput View) : Prop where
  name : i.name.off + i.name.len ≤ n
  args : ∀ v ∈ i.arguments, ∀ w ∈ v.subvalues, w.off + w.len ≤ n
  keys : ∀ a ∈ i.namedArguments, a.key.off + a.key.len ≤ n
  vals : ∀ a ∈ i.namedArguments, ∀ w ∈ a.value.subvalues, w.off + w.len ≤ n

/-- The errors documented for command lines. -/
inductive SyntaxError : Bytes → Prop
  | quote (c : Byte) : SyntaxError
      (lit "Token '" ++ [c] ++ lit "' doesn't have a corresponding opening/closing quote")
  | paren (c : Byte) : SyntaxError
      (lit "Token '" ++ [c] ++ lit "' doesn't have a corresponding opening/closing token")
  | noName : SyntaxError (lit "Unexpected token '=': no name for the named argument is provided")
  | noValue : SyntaxError (lit "Expected an argument value, found '='")
  | noValueEnd : SyntaxError (lit "Expected an argument value, found end of string")
  | beginning (t : Bytes) : SyntaxError
      (lit "Unexpected token '" ++ t ++ lit "' at the beginning of the expression")

/-- What is open after reading a text from left to right. -/
inductive Open where
  | nothing
  | quote (q : Byte)
  | paren (p : Byte)
  deriving DecidableEq, Repr

/-- One character: any quote closes a quote, any parenthesis closes a parenthesis; nothing else
matters inside. -/
def Open.step (d : Delims) : Open → Byte → Open
  | .nothing, c => if c ∈ d.quotes then .quote c else if c ∈ d.parens then .paren c else .nothing
  | .quote q, c => if c ∈ d.quotes then .nothing else .quote q
  | .paren p, c => if c ∈ d.parens then .nothing else .paren p

/-- What is open at the end of a text. -/
def openAtEnd (d : Delims) (s : Bytes) : Open := s.foldl (Open.step d) .nothing

/-- The pieces of a text between separators (empty ones included). -/
def chunks (d : Delims) [DecidablePred (Separator d)] : Bytes → List Bytes
  | [] => [[]]
  | c :: t =>
    if Separator d c then [] :: chunks d t
    else match chunks d t with
      | h :: r => (c :: h) :: r
      | [] => [[c]]

/-- The non-empty pieces of a text between separators. -/
def pieces (d : Delims) [DecidablePred (Separator d)] (s : Bytes) : List Bytes :=
  (chunks d s).filter (· ≠ [])

instance (d : Delims) : DecidablePred (Separator d) := fun c => by unfold Separator; infer_instance

/-- `s0 p1 s1 p2 s2 ... pn sn`. -/
def interleave : Bytes → List (Bytes × Bytes) → Bytes
  | s0, [] => s0
  | s0, (p, s) :: rest => s0 ++ (p ++ interleave s rest)

end Coil.Spec
