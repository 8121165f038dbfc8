import Verif.Spec.Story

/-!
# When a program answers
-/

namespace Coil.Spec

variable {W C D : Type}

/-- The command that is entered with a request, if there is one. -/
def Enters (d : Delims) : Request → Input → Prop
  | .line t, i => Accepts d t i
  | .input j, i => j = i

/-- A command has an answer that depends on no state: it is not known or has the wrong number of arguments, or the conversions of its arguments are
defined and, if they all succeed, the function comes to an end whatever the state is. -/
def Answerable (P : C → FunctorDef W C D) (T : Table C D) (good : W → Prop) (i : Input) : Prop :=
  ∀ fs f, i.name ≠ [] → T.functions i.name = some fs → FirstTaking P i.arguments.length fs f →
    ConversionsDefined (P f.1).params i.arguments ∧
    ∀ xs, ConvertTo (P f.1).params i.arguments xs → ∀ w, good w → ∃ es e w', Says f.2 i.namedArguments [] ((P f.1).body xs) w es e w'

/-- Whether the functions come to an end does not depend on which of the good states there is, and they lead from good states to good states. -/
structure Steady (P : C → FunctorDef W C D) (T : Table C D) (good : W → Prop) : Prop where
  same {c : Bytes × List (C × D)} {f : C × D} {xs : Args (P f.1).params} {l : List Named} {w v : W} {es : List CtxEvent} {e : End (P f.1).R} {w' : W} :
    c ∈ T → f ∈ c.2 → good w → good v → Says f.2 l [] ((P f.1).body xs) w es e w' → ∃ es e v', Says f.2 l [] ((P f.1).body xs) v es e v'
  stays {c : Bytes × List (C × D)} {f : C × D} {xs : Args (P f.1).params} {l : List Named} {w : W} {es : List CtxEvent} {e : End (P f.1).R} {w' : W} :
    c ∈ T → f ∈ c.2 → good w → Says f.2 l [] ((P f.1).body xs) w es e w' → good w'

end Coil.Spec
