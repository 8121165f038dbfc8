import Verif.Proofs.LexCfg

/-! # C08 for arbitrary configurations -/

namespace Coil
open Spec

/-- **C08, exactly, for every configuration**: the delimiters between tokens are those of `outside`, the ones in compound values those of
`inside`. This says what happens with `=`, with overlapping sets and with bytes above 127. -/
theorem C08_exact (cfg : LexCfg) {s : Bytes} (hlen : s.length < 2 ^ 64 - 1) :
    (∀ i, lexRead cfg s = .ok (.ok i) ↔ AcceptsBy (outside cfg) (inside cfg) s i) ∧
    (∀ e, lexRead cfg s = .ok (.error e) ↔ Rejects (outside cfg) s e) ∧
    ∀ u, lexRead cfg s = .ub u ↔ u = .oobRead ∧ LoneQuoteBy (outside cfg) (inside cfg) s :=
  lexRead_any cfg hlen

/-- A configuration with overlapping sets, `=` as a quote, and a white space character that is not recognised. -/
def oddCfg : LexCfg := { parens := lit "()\"", quotes := lit "=\"", seps := lit "|,(", spaces := lit " ," ++ [0xA0], charSigned := true }

example : outside oddCfg = { parens := lit "()\"", quotes := [], seps := lit "|", spaces := lit " ," } ∧
    inside oddCfg = { parens := [], quotes := lit "=\"", seps := lit "|,(", spaces := lit " ," } := by
  refine ⟨?_, ?_⟩ <;> decide +kernel

/-- `=` quotes in compound values only, `"` is a parenthesis, `,` is white space. -/
example : AcceptsBy (outside oddCfg) (inside oddCfg) (lit "f x=1,y \"a b\" (=p q=|r)")
    ⟨lit "f", [⟨[lit "y"]⟩, ⟨[lit "a", lit "b"]⟩, ⟨[lit "p q", lit "r"]⟩], [⟨lit "x", ⟨[lit "1"]⟩⟩]⟩ :=
  ((C08_exact oddCfg (by decide)).1 _).1 (by decide +kernel)

example : Rejects (outside oddCfg) (lit "f =p q=") (lit "Unexpected token '=': no name for the named argument is provided") :=
  ((C08_exact oddCfg (by decide)).2.1 _).1 (by decide +kernel)

/-- A lone `=` in a compound value. -/
example : LoneQuoteBy (outside oddCfg) (inside oddCfg) (lit "f (a =)") :=
  (((C08_exact oddCfg (by decide)).2.2 .oobRead).1 (by decide +kernel)).2

end Coil
