import Verif.Spec.Lexer

/-!
# What arbitrary delimiters mean

The constructor of `DefaultLexer` takes any four sets of characters. This says which characters act as delimiters when the sets overlap,
contain `=`, or contain bytes above 127: outside of compound values `=` comes first, then white space, then parentheses, then quotes.
Inside of compound values only separators (with white space) and quotes matter, and there `=` can be one of them.
-/

namespace Coil.Spec

/-- The bytes that are recognised at all: where `char` is signed only ASCII. -/
def recognised (cfg : LexCfg) (c : Byte) : Bool := !cfg.charSigned || decide (c < 128)

/-- The delimiters between and around the tokens of a command line. -/
def outside (cfg : LexCfg) : Delims where
  spaces := cfg.spaces.filter (fun c => recognised cfg c && c != 61)
  parens := cfg.parens.filter (fun c => recognised cfg c && c != 61 && !cfg.spaces.contains c)
  quotes := cfg.quotes.filter (fun c => recognised cfg c && c != 61 && !cfg.spaces.contains c && !cfg.parens.contains c)
  seps := cfg.seps.filter (fun c => recognised cfg c && c != 61 && !cfg.spaces.contains c && !cfg.parens.contains c &&
    !cfg.quotes.contains c)

/-- The delimiters in the text of a compound value. -/
def inside (cfg : LexCfg) : Delims where
  spaces := cfg.spaces.filter (recognised cfg)
  parens := []
  quotes := cfg.quotes.filter (recognised cfg)
  seps := cfg.seps.filter (recognised cfg)

/-- `s` is a command line that denotes `i`: its tokens are delimited by `o`, its compound values are split by `d`. -/
def AcceptsBy (o d : Delims) (s : Bytes) (i : GInput Bytes) : Prop := ∃ ts, Tokens o s ts ∧ Command d ts i

/-- The same for lines with a compound value that has a lone quote. -/
def LoneQuoteBy (o d : Delims) (s : Bytes) : Prop :=
  ∃ n ts vs g, Tokens o s (.word n :: ts) ∧ Shape ts vs ∧ Tok.compound g ∈ vs ∧ LoneQuote d g

end Coil.Spec
