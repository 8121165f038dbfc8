import Verif.Spec.Registry
import Verif.Model.Observe

/-!
# The simplest registry

A list of names with their commands. Running a program on it, instead of on the hash map, says what the program is
supposed to do.
-/

namespace Coil
namespace Spec

/-- The commands, each with its name. -/
abbrev Book (C D : Type) := List (Bytes × Command C D)

/-- The command of a name. -/
def Book.get {C D : Type} : Book C D → Bytes → Option (Command C D)
  | [], _ => none
  | (n, c) :: rest, name => if n = name then some c else Book.get rest name

/-- Without a name. -/
def Book.without {C D : Type} : Book C D → Bytes → Book C D
  | [], _ => []
  | (n, c) :: rest, name => if n = name then Book.without rest name else (n, c) :: Book.without rest name

/-- The list as the container of a registry. -/
def bookOps {C D : Type} : RegOps (Book C D) C D where
  find b k := .ok (b.get k)
  put b k c := .ok ((k, c) :: b.without k)
  erase b k := .ok (b.without k)
  clear _ := []
  all b := b.map Prod.snd

/-- What the outside sees of a program: the results of `execute`, the state of the program, which function object was called
when, and how the registry was changed. (Not: how the container looks.) -/
structure Seen (W C D : Type) where
  results : List ExecOut
  user : W
  calls : List (Nat × Nat)
  changes : List (RegEvent C D)

/-- What is seen of an end of a program. -/
def seen {S W C D : Type} (x : Sys S W C D × List ExecOut) : Seen W C D := ⟨x.2, x.1.user, x.1.calls, x.1.history⟩

end Spec
end Coil
