import Verif.Proofs.TypeName
import Verif.Props.Typed
import Verif.Props.Registry
import Verif.Proofs.Access

/-!
# Type names (C64) and pointer results (C65)
-/

namespace Coil
open Spec

/-! ## C64 -/

/-- **C64.** On every platform and with every naming option, two types with the same name are the same type. -/
theorem C64_names (pl : Platform) (t u : CTy) (h : t.name pl = u.name pl) : t = u := by
  rw [TypeNames.name_naming, TypeNames.name_naming pl u] at h
  exact TypeNames.name_inj _ _ t u h

/-- The type whose name a parameter shows. -/
def PTy.shown : PTy → CTy
  | .int t => .int t
  | .bool => .bool
  | .text => .text
  | .raw => .raw
  | .vec a => .vec (PTy.shown a)
  | .opt a => .opt (PTy.shown a)

/-- The serializers carry these names. -/
theorem C64_serializer_name (pl : Platform) (a : PTy) : (a.conv pl).name = (PTy.shown a).name pl := by
  induction a with
  | vec a ih => simp only [PTy.conv, vecConv, PTy.shown, CTy.name, ih]
  | opt a ih => simp only [PTy.conv, optConv, PTy.shown, CTy.name, ih]
  | _ => rfl

/-- **C64.** The parameter types that `Bindings` reports for a function determine its parameter list. -/
theorem C64_signature {W C D : Type} {P : C → FunctorDef W C D} (pl : Platform) {f g : Inst C D} {as bs : List PTy}
    (hf : (P f.code).params = as.map (PTy.param pl)) (hg : (P g.code).params = bs.map (PTy.param pl))
    (h : parameterTypes P f = parameterTypes P g) : as = bs := by
  unfold parameterTypes at h
  rw [hf, hg] at h
  have hinj : ∀ a b : PTy, PTy.shown a = PTy.shown b → a = b := by
    intro a
    induction a with
    | vec a ih => intro b; cases b <;> simp [PTy.shown]; exact ih _
    | opt a ih => intro b; cases b <;> simp [PTy.shown]; exact ih _
    | _ => intro b; cases b <;> simp [PTy.shown]
  clear hf hg
  induction as generalizing bs with
  | nil => cases bs with
    | nil => rfl
    | cons b bs => simp at h
  | cons a as ih =>
    cases bs with
    | nil => simp at h
    | cons b bs =>
      simp only [List.map_cons, List.cons.injEq] at h
      have h1 : (a.conv pl).name = (b.conv pl).name := h.1
      rw [C64_serializer_name, C64_serializer_name] at h1
      rw [hinj a b (C64_names pl _ _ h1), ih h.2]

/-- With aliases, `long` and `long long` still have different names, on either kind of platform. -/
example : (CTy.int .long).name ⟨true, true, true, true⟩ = lit "int64" ∧ (CTy.int .llong).name ⟨true, true, true, true⟩ = lit "long long" ∧
    (CTy.int .long).name ⟨false, true, true, false⟩ = lit "long" ∧ (CTy.int .llong).name ⟨false, true, true, false⟩ = lit "int64" := by
  refine ⟨?_, ?_, ?_, ?_⟩ <;> decide +kernel

example : (CTy.vec (.opt (.int .uchar))).name ⟨true, true, true, true⟩ = lit "vector<optional<uint8>>" := by decide +kernel

/-! ## C65 -/

section
variable {S W C D : Type} {P : C → FunctorDef W C D} {ops : RegOps S C D} {catching : Bool} {fuel depth : Nat}
  {s s' : Sys S W C D} {cmd : Command C D} {f : Inst C D} {req : Request} {input : Input}

/-- What a pointer result should look like: `null`, or the text of what it points to. -/
def pointerText (text : α → Bytes) : Option α → Bytes
  | none => lit "null"
  | some x => text x

/-- **C65.** The result of a function that returns a pointer (other than `char const*`) is `null` for a null pointer and otherwise the
text of what it points to. -/
theorem C65_pointer_partial (hm : Means s.lexer req input) (hn : input.name ≠ [])
    (hf : ops.find s.reg input.name = .ok (some cmd)) (hs : FirstOfArity P input.arguments.length cmd.functors f)
    (hd : f.id ∉ s.freed) {T : Type} {conv : Conv T} {ps : List Param} {body : Args ps → Prog W C D (Option T)}
    (hP : P f.code = returnsPtr conv ps body) {xs : Args ps} (hx : ConvertTo ps input.arguments xs) {es : List CtxEvent}
    {r : Option T} (he : errorsOf es = [])
    (h : Runs ops (nested P ops catching fuel (depth + 1)) f input.namedArguments [] (body xs)
        { s with calls := s.calls ++ [(depth, f.id)] } es (.ret r) s') :
    ∃ res, (nested P ops catching (fuel + 1) depth).exec s req = .ok (s', .ok res) ∧ res.errors = [] ∧
      res.returnValue = some (pointerText conv.toString r) := by
  have key : ∀ d : FunctorDef W C D, d = returnsPtr conv ps body → P f.code = d →
      ∃ (xs' : Args (P f.code).params) (r' : (P f.code).R), ConvertTo (P f.code).params input.arguments xs' ∧
        Runs ops (nested P ops catching fuel (depth + 1)) f input.namedArguments [] ((P f.code).body xs')
          { s with calls := s.calls ++ [(depth, f.id)] } es (.ret r') s' ∧
        ∃ p, (P f.code).print = some p ∧ p r' = pointerText conv.toString r := by
    rintro d rfl hd
    rw [hd]
    exact ⟨xs, r, hx, h, _, rfl, by cases r <;> rfl⟩
  obtain ⟨xs', r', h1, h2, p, h3, h4⟩ := key _ rfl hP
  obtain ⟨res, g1, g2, g3, _, _⟩ := C29_returned hm hn hf hs hd h1 h2
  exact ⟨res, g1, by rw [g2, he], by rw [g3 he p h3, h4]⟩

/-- **C65**, `char const*`: for a pointer that is not null, the result is the text up to its first NUL byte. Missing: null pointers, for which
the behaviour is undefined. -/
theorem C65_cstr_partial (hm : Means s.lexer req input) (hn : input.name ≠ [])
    (hf : ops.find s.reg input.name = .ok (some cmd)) (hs : FirstOfArity P input.arguments.length cmd.functors f)
    (hd : f.id ∉ s.freed) {pl : Platform} {ps : List Param} {body : Args ps → Prog W C D (Option Bytes)}
    (hP : P f.code = returnsCStr pl ps body) {xs : Args ps} (hx : ConvertTo ps input.arguments xs) {es : List CtxEvent}
    {t : Bytes} (he : errorsOf es = [])
    (h : Runs ops (nested P ops catching fuel (depth + 1)) f input.namedArguments [] (body xs)
        { s with calls := s.calls ++ [(depth, f.id)] } es (.ret (some t)) s') :
    ∃ res, (nested P ops catching (fuel + 1) depth).exec s req = .ok (s', .ok res) ∧ res.errors = [] ∧
      res.returnValue = some (cstr t) := by
  have key : ∀ d : FunctorDef W C D, d = returnsCStr pl ps body → P f.code = d →
      ∃ (xs' : Args (P f.code).params) (r' : (P f.code).R), ConvertTo (P f.code).params input.arguments xs' ∧
        Runs ops (nested P ops catching fuel (depth + 1)) f input.namedArguments [] ((P f.code).body xs')
          { s with calls := s.calls ++ [(depth, f.id)] } es (.ret r') s' ∧
        ∃ p, (P f.code).print = some p ∧ p r' = cstr t := by
    rintro d rfl hd
    rw [hd]
    exact ⟨xs, cstr t, hx, by
      have := Runs.bind_ret (f := fun p => .ofRes (charPtrToString p)) (es2 := []) h .ret
      rw [List.append_nil] at this
      exact this, _, rfl, rfl⟩
  obtain ⟨xs', r', h1, h2, p, h3, h4⟩ := key _ rfl hP
  obtain ⟨res, g1, g2, g3, _, _⟩ := C29_returned hm hn hf hs hd h1 h2
  exact ⟨res, g1, by rw [g2, he], by rw [g3 he p h3, h4]⟩

end

namespace Demo

/-- Two functions that return a pointer to a text: a `String*` and a `char const*`. The argument says whether it is null. -/
def PP : Nat → FunctorDef Int Nat Nat
  | 0 => returnsPtr stringConv [⟨Bool, boolConv pl⟩] fun a => .ret (if a.1 then none else some (lit "hello"))
  | 1 => returnsCStr pl [⟨Bool, boolConv pl⟩] fun a => .ret (if a.1 then none else some (lit "hello"))
  | _ => returnsPtr stringConv [] fun _ => .ret (some (lit "null"))

/-- The result of executing a line. -/
def execP (t : String) : Res ExecOut := do
  let m ← UMap.create (djb2 true) 1
  let s ← bindingsAdd ops ⟨m, some (lexRead (LexCfg.default true)), 10, [], 0, [], []⟩ (lit "str") [(0, 0)]
  let s ← bindingsAdd ops s (lit "cstr") [(1, 0)]
  let s ← bindingsAdd ops s (lit "word") [(2, 0)]
  let (_, o) ← execute PP ops true 5 s (.line (lit t))
  .ok o

/-- The return value of executing a line. -/
def returnedP (t : String) : Res (Option Bytes) := do
  match ← execP t with
  | .ok r => .ok r.returnValue
  | .error _ => .ok none

end Demo

/-- **C65 is false of the code**: a null `char const*` has no text, printing it is undefined. -/
theorem C65_cstr_null_false : Demo.execP "cstr true" = .ub .nullDeref := by
  have h : (match Demo.execP "cstr true" with | .ub w => some w | _ => none) = some .nullDeref := by decide +kernel
  revert h
  cases Demo.execP "cstr true" with
  | ub w => intro h; cases h; rfl
  | ok _ => intro h; cases h
  | diverge => intro h; cases h

/-- **C65.** The text alone does not tell a null pointer from a pointer to the text `null`. -/
theorem C65_null_text_false : Demo.returnedP "str true" = .ok (some (lit "null")) ∧ Demo.returnedP "word" = .ok (some (lit "null")) := by
  refine ⟨?_, ?_⟩ <;> decide +kernel

/-- **C65 is false of the code**, what is listed: a function that returns `char const*` is listed as returning `char`, though what it returns is a text;
and pointers are listed as what they point to. -/
theorem C65_return_type_false : (Demo.PP 1).retName = lit "char" ∧
    ∃ t u : RTy, t ≠ u ∧ t.name Demo.pl = u.name Demo.pl :=
  ⟨rfl, .val .bool, .ptr .bool, by decide, rfl⟩

example : Demo.returnedP "cstr no" = .ok none ∧ Demo.returnedP "cstr false" = .ok (some (lit "hello")) ∧
    Demo.returnedP "str 0" = .ok (some (lit "hello")) := by
  refine ⟨?_, ?_, ?_⟩ <;> decide +kernel

end Coil
