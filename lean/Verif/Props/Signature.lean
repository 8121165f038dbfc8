import Verif.Proofs.Signature

/-!
# Properties of signatures (C77)

`Sig.register k c` is `bindings.add(name, func)` for a callable of type `c`: `none` if the program does not compile, otherwise the
signature that `get(name)` shows and that decides how many arguments are converted, to which types. `k` says which types have a
name and can be converted.
-/

namespace Coil
open Sig Spec.Sig

namespace SigDemo

/-- `int` and `float` can be read and printed; `int*` can be printed; `void` has a name. -/
def known : Known where
  name t :=
    if t = object .void then some (lit "void")
    else if t = object (.named (lit "int")) then some (lit "int")
    else if t = object (.named (lit "float")) then some (lit "float")
    else none
  reads t := t == object (.named (lit "int")) || t == object (.named (lit "float"))
  prints t := t == object (.named (lit "int")) || t == object (.named (lit "float")) ||
    t == object (.ptr plain (.named (lit "int")))

def int : Ty := .named (lit "int")
def float : Ty := .named (lit "float")

/-- `int const& f(Context const&, int, float const&, int&&)`. -/
def f : Fn := ⟨.lref ⟨true, false⟩ int,
  [.lref ⟨true, false⟩ .context, .obj ⟨true, false⟩ int, .lref ⟨true, false⟩ float, .rref plain int], false⟩

end SigDemo

variable {k : Known} {f g : Fn} {q : Quals} {cv : Cv} {sig sig' : Signature}

/-- **C77.** The signature of a function pointer, exactly. -/
theorem C77_function_iff {noexcept : Bool} : register k (.pointer noexcept f) = some sig ↔ HasSignature k f sig := by
  simp only [register, funcTraits]
  cases hf : f.ellipsis with
  | true => simp only [if_true]; exact ⟨fun h => (nomatch h), fun h => absurd h.noEllipsis (by simp [hf])⟩
  | false => exact wrap_iff hf

example : register SigDemo.known (.pointer false SigDemo.f) =
    some ⟨[lit "int", lit "float", lit "int"], lit "int", true, true⟩ := by decide +kernel

example : HasSignature SigDemo.known SigDemo.f ⟨[lit "int", lit "float", lit "int"], lit "int", true, true⟩ :=
  (C77_function_iff (noexcept := true)).1 (by decide +kernel)

/-- A pointer is shown as what it points to. -/
example : register SigDemo.known (.pointer false ⟨.obj plain (.ptr plain SigDemo.int), [], false⟩) =
    some ⟨[], lit "int", false, true⟩ := by decide +kernel

/-- A `Context` that is not the first parameter is taken for an argument of the user. -/
example : register SigDemo.known (.pointer false ⟨.obj plain .void, [.obj plain SigDemo.int, .obj plain .context], false⟩) =
    none := by decide +kernel

/-- **C77.** The signature of an object with one `operator()`, with any qualifiers except `&&`. -/
theorem C77_functor_iff : register k (.functor [some (q, f)]) = some sig ↔ q.ref ≠ .rvalue ∧ HasSignature k f sig := by
  simp only [register, funcTraits, memberTraits_eq]
  have hc : callableOn plain q = true ↔ q.ref ≠ .rvalue := by
    rw [callableOn_iff]
    exact ⟨fun h => h.lvalue, fun h => ⟨h, fun h => by simp [plain] at h, fun h => by simp [plain] at h⟩⟩
  cases hf : f.ellipsis with
  | true => simp only [if_true]; exact ⟨fun h => (nomatch h), fun h => absurd h.2.noEllipsis (by simp [hf])⟩
  | false =>
    simp only [Bool.false_eq_true, if_false]
    by_cases hq : q.ref ≠ .rvalue
    · rw [if_pos (hc.2 hq)]
      exact ⟨fun h => ⟨hq, (wrap_iff hf).1 h⟩, fun h => (wrap_iff hf).2 h.2⟩
    · rw [if_neg (fun h => hq (hc.1 h))]
      exact ⟨fun h => (nomatch h), fun h => absurd h.1 hq⟩

example : register SigDemo.known (.functor [some (⟨⟨true, false⟩, .none, true⟩, SigDemo.f)]) =
    register SigDemo.known (.pointer false SigDemo.f) := by decide +kernel

/-- **C77.** Objects whose `operator()` is missing, overloaded or a template are rejected. -/
theorem C77_functor_one {ops : List (Option (Quals × Fn))} (h : register k (.functor ops) = some sig) :
    ∃ q f, ops = [some (q, f)] := by
  unfold register at h
  match ops with
  | [] => simp [funcTraits] at h
  | [none] => simp [funcTraits] at h
  | [some (q, f)] => exact ⟨q, f, rfl⟩
  | none :: _ :: _ => simp [funcTraits] at h
  | some _ :: _ :: _ => simp [funcTraits] at h

/-- **C77.** Nothing else can be registered directly: what compiles is a function pointer or an object with one `operator()`. In particular
a pointer to a member function needs an object, see below. -/
theorem C77_callable {c : Callable} (h : register k c = some sig) :
    (∃ noexcept f, c = .pointer noexcept f) ∨ ∃ q f, c = .functor [some (q, f)] := by
  cases c with
  | pointer n f => exact .inl ⟨n, f, rfl⟩
  | member q f =>
    exfalso
    unfold register at h
    split at h <;> cases h
  | functor ops =>
    obtain ⟨q, f, rfl⟩ := C77_functor_one h
    exact .inr ⟨q, f, rfl⟩
  | other => cases h

example : register SigDemo.known (.member ⟨⟨true, false⟩, .none, true⟩ SigDemo.f) = none := by decide +kernel

/-- **C77.** `bind(func, obj)` compiles exactly if the member function can be called on the object; then the signature is that of the
function. -/
theorem C77_bind_iff : bind k q f cv = some sig ↔ Calls cv q ∧ HasSignature k f sig := by
  simp only [Sig.bind, funcTraits, memberTraits_eq]
  cases hf : f.ellipsis with
  | true => simp only [if_true]; exact ⟨fun h => (nomatch h), fun h => absurd h.2.noEllipsis (by simp [hf])⟩
  | false =>
    simp only [Bool.false_eq_true, if_false]
    by_cases hc : Calls cv q
    · have h1 : (!cv.const || q.cv.const) = true := by
        cases h : cv.const
        · rfl
        · simpa using hc.const h
      rw [if_pos h1, if_pos ((callableOn_iff ..).2 hc)]
      exact ⟨fun h => ⟨hc, (wrap_iff hf).1 h⟩, fun h => (wrap_iff hf).2 h.2⟩
    · rw [if_neg (fun h => hc ((callableOn_iff ..).1 h)), ite_self]
      exact ⟨fun h => (nomatch h), fun h => absurd h.1 hc⟩

example : bind SigDemo.known ⟨⟨true, false⟩, .lvalue, true⟩ SigDemo.f ⟨true, false⟩ =
    some ⟨[lit "int", lit "float", lit "int"], lit "int", true, true⟩ := by decide +kernel

/-- **C77.** The number of arguments is the number of parameters, without a `Context` in the first place. -/
theorem C77_arity (h : HasSignature k f sig) :
    (TakesContext f.params → sig.params.length + 1 = f.params.length) ∧
      (¬ TakesContext f.params → sig.params.length = f.params.length) := by
  obtain ⟨ts, h1, h2⟩ := h.params
  rw [readable_length h2]
  generalize f.params = ps at h1 ⊢
  cases h1 with
  | context h => exact ⟨fun _ => by simp, fun hn => absurd h hn⟩
  | all hn => exact ⟨fun h => absurd h hn, fun _ => by simp⟩

/-- **C77.** Qualifiers and references do not matter: functions whose parameters and results have the same value types have the
same signature. -/
theorem C77_same_values (hp : f.params.map valueType = g.params.map valueType)
    (hr : valueType f.result = valueType g.result) (h : HasSignature k f sig) (h' : HasSignature k g sig') :
    sig = sig' := by
  have hc : TakesContext f.params ↔ TakesContext g.params := by
    cases hf : f.params <;> cases hg : g.params <;> simp_all [TakesContext]
  have hts : ∀ {ts ts'}, UserTypes f.params ts → UserTypes g.params ts' → ts = ts' := by
    intro ts ts' a b
    generalize f.params = ps at *
    generalize g.params = ps' at *
    cases a with
    | context a =>
      cases b with
      | context b => simpa using (List.cons.inj hp).2
      | all b => exact absurd (hc.1 a) b
    | all a =>
      cases b with
      | context b => exact absurd (hc.2 b) a
      | all b => exact hp
  obtain ⟨ts, h1, h2⟩ := h.params
  obtain ⟨ts', h3, h4⟩ := h'.params
  have := hts h1 h3
  subst this
  have e1 := readable_unique h2 h4
  have e2 : sig.result = sig'.result := by
    have a := h.result
    have b := h'.result
    rw [hr, b] at a
    exact (Option.some.inj a).symm
  have e3 : sig.context = sig'.context := by rw [Bool.eq_iff_iff, h.context, h'.context, hc]
  have e4 : sig.prints = sig'.prints := by rw [Bool.eq_iff_iff, h.prints, h'.prints, hr]
  obtain ⟨a, b, c, d⟩ := sig
  obtain ⟨a', b', c', d'⟩ := sig'
  simp_all

/-- **C77.** Every combination of qualifiers of a member function is known, and is `const` when it should be. -/
theorem C77_qualifiers (hf : f.ellipsis = false) :
    ∃ t, funcTraits (.member q f) = some t ∧ t.isConst = q.cv.const := by
  simp only [funcTraits, memberTraits_eq, hf]
  exact ⟨_, rfl, rfl⟩

/-- The signature of a lambda. -/
private theorem register_lambda {r : CTy} {ps : List CTy} (h : HasSignature k ⟨r, ps, false⟩ sig) :
    register k (lambda r ps) = some sig := C77_functor_iff.2 ⟨by simp, h⟩

/-- **C77.** The two functions of a variable of type `t`, which may be read-only: one without arguments and one with an argument of
type `t`; both show the result type `t`. -/
theorem C77_variable {t : Ty} {n r : Bytes} (ht : t ≠ .context) (hv : t ≠ .void) (hn : k.name (object t) = some n)
    (hr : k.name (object (shown t)) = some r) (hreads : k.reads (object t) = true)
    (hprints : k.prints (object t) = true) :
    (variableFns t).map (register k) = [some ⟨[], r, false, true⟩, some ⟨[n], r, false, true⟩] ∧
    (constVariableFns t).map (register k) = [some ⟨[], r, false, true⟩, some ⟨[n], r, true, true⟩] := by
  have hget : register k (lambda (.lref ⟨true, false⟩ t) []) = some ⟨[], r, false, true⟩ :=
    register_lambda ⟨rfl, by simp, ⟨[], .all (by simp [TakesContext]), .nil⟩, hr, .inr hprints, by simp [TakesContext],
      by simpa [valueType] using hv⟩
  simp only [variableFns, constVariableFns, List.map_cons, List.map_nil, hget]
  refine ⟨?_, ?_⟩
  · rw [register_lambda (sig := ⟨[n], r, false, true⟩)]
    exact ⟨rfl, by simpa using .byValue, ⟨[t], .all (by simpa [TakesContext, valueType] using ht), .cons hn hreads .nil⟩, hr,
      .inr hprints, by simpa [TakesContext, valueType] using ht, by simpa [valueType] using hv⟩
  · rw [register_lambda (sig := ⟨[n], r, true, true⟩)]
    refine ⟨rfl, ?_, ⟨[t], .context rfl, .cons hn hreads .nil⟩, hr, .inr hprints, ?_, ?_⟩
    · intro p hp
      rcases List.mem_cons.1 hp with rfl | hp
      · exact .byValue
      · obtain rfl := List.mem_singleton.1 hp
        exact .byValue
    · simp [TakesContext, valueType]
    · simpa [valueType] using hv

example : (variableFns SigDemo.float).map (register SigDemo.known) =
    [some ⟨[], lit "float", false, true⟩, some ⟨[lit "float"], lit "float", false, true⟩] := by decide +kernel

/-- **C77.** The two functions of a property whose getter has results of type `t`, by value or by reference: with a setter and for a bound
read-only property the second one has an argument of type `t`, for a read-only property that is not bound one of type `coil::Value`. -/
theorem C77_property {g : CTy} {value : Ty} {n r nv : Bytes} (ht : valueType g ≠ .context) (hv : valueType g ≠ .void)
    (hn : k.name (object (valueType g)) = some n) (hr : k.name (object (shown (valueType g))) = some r)
    (hreads : k.reads (object (valueType g)) = true) (hprints : k.prints (object (valueType g)) = true)
    (hnv : k.name (object value) = some nv) (hrv : k.reads (object value) = true) :
    (propertyFns g).map (register k) = [some ⟨[], r, false, true⟩, some ⟨[n], r, false, true⟩] ∧
    (boundReadOnlyFns g).map (register k) = [some ⟨[], r, false, true⟩, some ⟨[n], r, true, true⟩] ∧
    (readOnlyFns value g).map (register k) = [some ⟨[], r, false, true⟩, some ⟨[nv], r, true, true⟩] := by
  have hd : decay g = object (valueType g) := by cases g <;> rfl
  have hget : register k (lambda g []) = some ⟨[], r, false, true⟩ :=
    register_lambda ⟨rfl, by simp, ⟨[], .all (by simp [TakesContext]), .nil⟩, hr, .inr hprints, by simp [TakesContext],
      by simpa [valueType] using hv⟩
  have hctx : ∀ {t : Ty} {m : Bytes}, k.name (object t) = some m → k.reads (object t) = true →
      register k (lambda g [.obj plain .context, .obj plain t]) = some ⟨[m], r, true, true⟩ := by
    intro t m h1 h2
    refine register_lambda ⟨rfl, ?_, ⟨[t], .context rfl, .cons h1 h2 .nil⟩, hr, .inr hprints, ?_, ?_⟩
    · intro p hp
      rcases List.mem_cons.1 hp with rfl | hp
      · exact .byValue
      · obtain rfl := List.mem_singleton.1 hp
        exact .byValue
    · simp [TakesContext, valueType]
    · simpa using hv
  simp only [propertyFns, boundReadOnlyFns, readOnlyFns, List.map_cons, List.map_nil, hget, hd]
  refine ⟨?_, ?_, ?_⟩
  · rw [register_lambda (sig := ⟨[n], r, false, true⟩)]
    exact ⟨rfl, by simpa [constRef, object] using .constRef,
      ⟨[valueType g], .all (by simpa [TakesContext, valueType, constRef, object] using ht), .cons hn hreads .nil⟩, hr,
      .inr hprints, by simpa [TakesContext, valueType, constRef, object] using ht, by simpa using hv⟩
  · rw [show object (valueType g) = .obj plain (valueType g) from rfl, hctx hn hreads]
  · rw [hctx hnv hrv]

example : (propertyFns (.lref ⟨true, false⟩ SigDemo.int)).map (register SigDemo.known) =
    [some ⟨[], lit "int", false, true⟩, some ⟨[lit "int"], lit "int", false, true⟩] := by decide +kernel

/-- **C77**: `isFunc` does not mean that a callable can be registered: the traits accept `&&`-qualified functions and parameters
that are references to non-`const`, and the program then does not compile. -/
theorem C77_isFunc_false :
    (∃ q, (funcTraits (.member q SigDemo.f)).isSome = true ∧ ∀ cv, bind SigDemo.known q SigDemo.f cv = none) ∧
    (∃ f, (funcTraits (.pointer false f)).isSome = true ∧ register SigDemo.known (.pointer false f) = none) := by
  refine ⟨⟨⟨plain, .rvalue, false⟩, rfl, fun cv => ?_⟩,
    ⟨⟨.obj plain .void, [.lref plain SigDemo.int], false⟩, rfl, by decide +kernel⟩⟩
  cases h : bind SigDemo.known ⟨plain, .rvalue, false⟩ SigDemo.f cv with
  | none => rfl
  | some sig => exact absurd rfl (C77_bind_iff.1 h).1.lvalue

end Coil
