import Verif.Model.Signature

/-!
# What a signature means
-/

namespace Coil
namespace Spec
namespace Sig
open Coil.Sig

/-- The type of the values of a parameter or result. -/
def valueType : CTy → Ty
  | .obj _ t => t
  | .lref _ t => t
  | .rref _ t => t

/-- A function can be given a temporary for this parameter: by value, by rvalue reference, or by `const&`. -/
inductive TakesValue : CTy → Prop
  | byValue {cv t} : TakesValue (.obj cv t)
  | moved {cv t} : TakesValue (.rref cv t)
  | constRef {t} : TakesValue (.lref ⟨true, false⟩ t)

/-- The first parameter is a `Context`. -/
def TakesContext : List CTy → Prop
  | [] => False
  | p :: _ => valueType p = .context

/-- The types of the arguments a user has to give. -/
inductive UserTypes : List CTy → List Ty → Prop
  | context {p ps} : valueType p = .context → UserTypes (p :: ps) (ps.map valueType)
  | all {ps} : ¬ TakesContext ps → UserTypes ps (ps.map valueType)

/-- The type whose name is shown for a result: pointers are shown as what they point to. -/
def shown : Ty → Ty
  | .ptr _ t => t
  | t => t

/-- A type without qualifiers. -/
def object (t : Ty) : CTy := .obj ⟨false, false⟩ t

/-- `ns` are the names of the types `ts`, which can be read from values. -/
inductive Readable (k : Known) : List Ty → List Bytes → Prop
  | nil : Readable k [] []
  | cons {t ts n ns} : k.name (object t) = some n → k.reads (object t) = true → Readable k ts ns →
      Readable k (t :: ts) (n :: ns)

/-- `sig` is the signature of a function of type `f`. -/
structure HasSignature (k : Known) (f : Fn) (sig : Signature) : Prop where
  noEllipsis : f.ellipsis = false
  takes : ∀ p ∈ f.params, TakesValue p
  params : ∃ ts, UserTypes f.params ts ∧ Readable k ts sig.params
  result : k.name (object (shown (valueType f.result))) = some sig.result
  printable : valueType f.result = .void ∨ k.prints (object (valueType f.result)) = true
  context : sig.context = true ↔ TakesContext f.params
  prints : sig.prints = true ↔ valueType f.result ≠ .void

/-- A member function with the qualifiers `q` can be called on an lvalue with the qualifiers `cv`. -/
structure Calls (cv : Cv) (q : Quals) : Prop where
  lvalue : q.ref ≠ .rvalue
  const : cv.const = true → q.cv.const = true
  volatile : cv.volatile = true → q.cv.volatile = true

end Sig
end Spec
end Coil
