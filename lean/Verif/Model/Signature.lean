import Verif.Model.Basic

/-!
# Signatures: what the type traits make of a function type
(include/coil/detail/TypeTraits.h, FuncTraits.h, FunctionWrapper.h 17-60, Types.h, Bind.h, Bindings.h 36-42)

The templates are functions from types to types. A program that does not compile is `none`. The types are those that a
parameter or a result of a function can have: qualified object types, and references to them.

Simplifications. Arrays and functions as parameters are pointers (as in C++). Which types have a name, a `fromString` and a
`toString` is a parameter of the model (`Known`); the conversions are the subject of C15-C18. Values can be moved and copied.
-/

namespace Coil
namespace Sig

/-- `const` and `volatile`. -/
structure Cv where
  const : Bool
  volatile : Bool
  deriving DecidableEq, Repr

/-- No qualifiers. -/
def plain : Cv := ⟨false, false⟩

/-- Object types without qualifiers; `named` are arithmetic types, enumerations and classes other than `coil::Context`. -/
inductive Ty where
  | void
  | context
  | named (name : Bytes)
  | ptr (cv : Cv) (to : Ty)
  deriving DecidableEq, Repr

/-- The types of parameters and results. -/
inductive CTy where
  | obj (cv : Cv) (t : Ty)
  | lref (cv : Cv) (t : Ty)
  | rref (cv : Cv) (t : Ty)
  deriving DecidableEq, Repr

/-- `RemoveCvT` (TypeTraits.h 5-27). -/
def removeCv : CTy → CTy
  | .obj _ t => .obj plain t
  | t => t

/-- `RemoveReferenceT` (TypeTraits.h 29-45). -/
def removeReference : CTy → CTy
  | .lref cv t => .obj cv t
  | .rref cv t => .obj cv t
  | t => t

/-- `RemovePointerT` (TypeTraits.h 47-73). -/
def removePointer : CTy → CTy
  | .obj _ (.ptr cv t) => .obj cv t
  | t => t

/-- `DecayT` (TypeTraits.h 75-76). -/
def decay (t : CTy) : CTy := removeCv (removeReference t)

/-- `IsVoidV` (TypeTraits.h 99-100). -/
def isVoid (t : CTy) : Bool := removeCv t == .obj plain .void

/-- `FuncTraits<Func>::ReturnType` (FuncTraits.h 17). -/
def returnType (r : CTy) : CTy := removeCv (removeReference r)

/-- The type whose name is shown for the result (FunctionWrapper.h 38). -/
def shownResult (r : CTy) : CTy := decay (removePointer (returnType r))

/-- `ArgsTraitsImpl<DecayT<Args>...>` (FunctionWrapper.h 17-29, 35): the number of arguments that are not the user's, and
the types of those that are. -/
def argsTraits (args : List CTy) : Nat × List CTy :=
  match args.map decay with
  | .obj ⟨false, false⟩ .context :: tail => (1, tail)
  | ts => (0, ts)

/-- The reference qualifier of a member function. -/
inductive RefQual where
  | none
  | lvalue
  | rvalue
  deriving DecidableEq, Repr

/-- The qualifiers of a member function. -/
structure Quals where
  cv : Cv
  ref : RefQual
  noexcept : Bool
  deriving DecidableEq, Repr

/-- A function type: result, parameters as declared, and whether it ends with an ellipsis. -/
structure Fn where
  result : CTy
  params : List CTy
  ellipsis : Bool
  deriving DecidableEq, Repr

/-- The type of a registered callable: a pointer to a function, a pointer to a member function, a class with these declarations
of `operator()` (`none`: a template), or any other type. -/
inductive Callable where
  | pointer (noexcept : Bool) (f : Fn)
  | member (q : Quals) (f : Fn)
  | functor (ops : List (Option (Quals × Fn)))
  | other
  deriving DecidableEq, Repr

/-- `BaseFuncTraits` (FuncTraits.h 12-20). -/
structure Traits where
  isConst : Bool
  result : CTy
  params : List CTy
  deriving DecidableEq, Repr

/-- The specialisations for pointers to member functions (FuncTraits.h 45-71): qualifiers and `IS_CONST`. -/
def memberTable : List (Quals × Bool) :=
  [(⟨⟨false, false⟩, .none, false⟩, false), (⟨⟨false, true⟩, .none, false⟩, false),
   (⟨⟨false, false⟩, .lvalue, false⟩, false), (⟨⟨false, true⟩, .lvalue, false⟩, false),
   (⟨⟨false, false⟩, .rvalue, false⟩, false), (⟨⟨false, true⟩, .rvalue, false⟩, false),
   (⟨⟨false, false⟩, .none, true⟩, false), (⟨⟨false, true⟩, .none, true⟩, false),
   (⟨⟨false, false⟩, .lvalue, true⟩, false), (⟨⟨false, true⟩, .lvalue, true⟩, false),
   (⟨⟨false, false⟩, .rvalue, true⟩, false), (⟨⟨false, true⟩, .rvalue, true⟩, false),
   (⟨⟨true, false⟩, .none, false⟩, true), (⟨⟨true, true⟩, .none, false⟩, true),
   (⟨⟨true, false⟩, .lvalue, false⟩, true), (⟨⟨true, true⟩, .lvalue, false⟩, true),
   (⟨⟨true, false⟩, .rvalue, false⟩, true), (⟨⟨true, true⟩, .rvalue, false⟩, true),
   (⟨⟨true, false⟩, .none, true⟩, true), (⟨⟨true, true⟩, .none, true⟩, true),
   (⟨⟨true, false⟩, .lvalue, true⟩, true), (⟨⟨true, true⟩, .lvalue, true⟩, true),
   (⟨⟨true, false⟩, .rvalue, true⟩, true), (⟨⟨true, true⟩, .rvalue, true⟩, true)]

/-- The parameter in the type of a function declared with a parameter `p`: qualifiers of the parameter itself do not belong to the
function's type (C++ [dcl.fct] 5). -/
def adjust : CTy → CTy
  | .obj _ t => .obj plain t
  | p => p

/-- `FuncTraitsImpl` of a pointer to member function (FuncTraits.h 38-73). No specialisation has an ellipsis. -/
def memberTraits (q : Quals) (f : Fn) : Option Traits :=
  if f.ellipsis then none
  else
    match memberTable.lookup q with
    | some c => some ⟨c, f.result, f.params.map adjust⟩
    | none => none

/-- `FuncTraits` (FuncTraits.h 22-84): `none` is `isFunc = false`. `decltype(&Func::operator())` is valid for exactly one declaration
that is not a template. -/
def funcTraits : Callable → Option Traits
  | .pointer _ f => if f.ellipsis then none else some ⟨false, f.result, f.params.map adjust⟩
  | .member q f => memberTraits q f
  | .functor [some (q, f)] => memberTraits q f
  | .functor _ => none
  | .other => none

/-- What exists for the types of a program: `TypeName<T>::name()`, `TypeSerializer<T>::fromString` and
`TypeSerializer<T>::toString`. -/
structure Known where
  name : CTy → Option Bytes
  reads : CTy → Bool
  prints : CTy → Bool

/-- Whether an expression `coil::move(x)` of an object of type `cv t` initialises a parameter of type `p` (with the same `t`). -/
def passes (cv : Cv) : CTy → Bool
  | .obj _ _ => !cv.volatile
  | .lref cv' _ => cv'.const && !cv'.volatile && !cv.volatile
  | .rref cv' _ => (!cv.const || cv'.const) && (!cv.volatile || cv'.volatile)

/-- The qualifiers of `coil::move(args)` for an argument declared with type `p` (Utility.h 7-11). -/
def movedCv (p : CTy) : Cv :=
  match removeReference p with
  | .obj cv _ => cv
  | _ => plain

/-- A parameter can be given a value: `createContext<0>(context)` or `coil::move(expectedArg).value()` for `invoke`
(FunctorCaller.h 34), then `coil::move(args)` for `typedCall` (FunctionWrapper.h 127) and for the function (76-84). -/
def usable (p : CTy) : Bool := passes plain p && passes (movedCv p) p

/-- `func(...)` where `func` has type `Func&` (FunctionWrapper.h 72, 76, 83), and `(obj->*func)(...)` where `obj` has type `C*` (78, 85): the object
is an lvalue with the qualifiers `cv`. -/
def callableOn (cv : Cv) (q : Quals) : Bool :=
  (q.ref != .rvalue) && (!cv.const || q.cv.const) && (!cv.volatile || q.cv.volatile)

/-- The signature of an `AnyFunctor` (AnyFunctor.h 77-78, 81-85): names of the parameter types and of the result type, whether the function is given a
`Context`, and whether its result is printed. -/
structure Signature where
  params : List Bytes
  result : Bytes
  context : Bool
  prints : Bool
  deriving DecidableEq, Repr

/-- `TypeName<T>::name()` of several types, each of which can be read from a value (Types.h 15-26, FunctorCaller.h 42). -/
def readNames (k : Known) : List CTy → Option (List Bytes)
  | [] => some []
  | t :: ts =>
    match k.name t, k.reads t, readNames k ts with
    | some n, true, some ns => some (n :: ns)
    | _, _, _ => none

/-- `AnyFunctor{FunctionWrapper{func, obj}}` (AnyFunctor.h 81-85, FunctionWrapper.h 37-46). -/
def wrap (k : Known) (t : Traits) : Option Signature :=
  let (own, user) := argsTraits t.params
  match t.params.all usable, readNames k user, k.name (shownResult t.result),
      isVoid (returnType t.result) || k.prints (returnType t.result) with
  | true, some ns, some r, true => some ⟨ns, r, own == 1, !isVoid (returnType t.result)⟩
  | _, _, _, _ => none

/-- `bindings.add(name, func)` and `bindings[name] = func` (Bindings.h 36-42, 69-75), `createAnyFunctor` (Overloaded.h 11-16). A pointer to
a member function has no object to be called on (FunctionWrapper.h 75-76, 82-83). -/
def register (k : Known) (c : Callable) : Option Signature :=
  match funcTraits c with
  | none => none
  | some t =>
    match c with
    | .functor [some (q, _)] => if callableOn plain q then wrap k t else none
    | .member _ _ => none
    | _ => wrap k t

/-- `bind(func, obj)` where `obj` points to a `cv` object (Bind.h 9-17). -/
def bind (k : Known) (q : Quals) (f : Fn) (cv : Cv) : Option Signature :=
  match funcTraits (.member q f) with
  | none => none
  | some t => if !cv.const || t.isConst then (if callableOn cv q then wrap k t else none) else none

/-- The type of a lambda that is not `mutable`. -/
def lambda (result : CTy) (params : List CTy) : Callable :=
  .functor [some (⟨⟨true, false⟩, .none, false⟩, ⟨result, params, false⟩)]

/-- The functions of `variable(T*)` (Variable.h 9-19). -/
def variableFns (t : Ty) : List Callable :=
  [lambda (.lref ⟨true, false⟩ t) [], lambda (.lref ⟨true, false⟩ t) [.obj plain t]]

/-- The functions of `variable(T const*)` (Variable.h 21-31). -/
def constVariableFns (t : Ty) : List Callable :=
  [lambda (.lref ⟨true, false⟩ t) [], lambda (.lref ⟨true, false⟩ t) [.obj plain .context, .obj plain t]]

/-- A parameter of type `T const&` where `T` is `t`. -/
def constRef : CTy → CTy
  | .obj cv t => .lref ⟨true, cv.volatile⟩ t
  | .lref cv t => .lref cv t
  | .rref cv t => .lref cv t

/-- The functions of `property(getter, setter)` and `bindProperty(getter, setter, object)` for a getter with result `g`
(Property.h 18-30, 45-57). -/
def propertyFns (g : CTy) : List Callable := [lambda g [], lambda g [constRef (decay g)]]

/-- The functions of `property(getter)` (Property.h 32-43); `value` is `coil::Value`. -/
def readOnlyFns (value : Ty) (g : CTy) : List Callable := [lambda g [], lambda g [.obj plain .context, .obj plain value]]

/-- The functions of `bindProperty(getter, object)` (Property.h 59-71). -/
def boundReadOnlyFns (g : CTy) : List Callable := [lambda g [], lambda g [.obj plain .context, decay g]]

end Sig
end Coil
