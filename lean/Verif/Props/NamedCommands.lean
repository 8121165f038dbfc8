import Verif.Proofs.PrintF
import Verif.Props.Inventory

/-!
# Commands with named arguments (C105)
-/

namespace Coil
open Spec Floats

namespace Demo

def namedUnit : FunctorDef Unit Nat Nat := ⟨[], Unit, lit "void", none, fun _ => .ret ()⟩

/-- The commands of the example. -/
def PNam (k : Nat) : FunctorDef Unit Nat Nat :=
  [printArgsDef, printFloatsDef (fun _ _ => true), saveGameDef linux64 (fun _ _ => true), requiredAndOptionalDef linux64].getD k namedUnit

def startNam : Res (Sys Reg Unit Nat Nat) := do
  let m ← UMap.create (djb2 true) 1
  let s ← bindingsAdd ops ⟨m, some (lexRead (LexCfg.default true)), (), [], 0, [], []⟩ (lit "print_args") [(0, 0)]
  let s ← bindingsAdd ops s (lit "print_floats") [(1, 0)]
  let s ← bindingsAdd ops s (lit "save_game") [(2, 0)]
  bindingsAdd ops s (lit "required_and_optional") [(3, 0)]

def execNam (lines : List String) : Res (List (Option (Answer × Bytes))) := do
  let s ← startNam
  let (_, os) ← executeAll PNam ops true 3 s (lines.map fun t => .line (lit t))
  .ok (os.map answer)

end Demo

variable {S W C D : Type} {P : C → FunctorDef W C D} {ops : RegOps S C D} {catching : Bool} {fuel depth : Nat}
  {s : Sys S W C D} {req : Request} {name : Bytes} {f : Inst C D} {named : List Named} {tiny : Nat → Nat → Bool} {pl : Platform}

section Helpers

variable {ne : Nested S W C D}

theorem errorsOf_lines (ts : List Bytes) : errorsOf (ts.map CtxEvent.logline) = [] := by
  induction ts with
  | nil => rfl
  | cons t ts ih => exact ih

theorem outputOf_lines (ts : List Bytes) : outputOf (ts.map CtxEvent.logline) = (ts.map (· ++ lit "\n")).flatten := by
  induction ts with
  | nil => rfl
  | cons t ts ih =>
    rw [List.map_cons, List.map_cons, List.flatten_cons, ← ih]
    rfl

theorem printArgsLoop_runs : ∀ (l : List Named) (past : List CtxEvent),
    Runs ops ne f named past (printArgsLoop l) s (l.map fun nv => CtxEvent.logline (cstr nv.key ++ lit ": " ++ cstr nv.value.str)) (.ret ()) s
  | [], _ => .ret
  | _ :: l, _ => .logline (printArgsLoop_runs l _)

theorem printFloatsLoop_runs : ∀ (l : List Named), (∀ nv ∈ l, ∃ r, (singleConv tiny).fromString nv.value = .ok r) → ∀ past,
    ∃ ev out, Runs ops ne f named past (printFloatsLoop tiny l) s ev (.ret ()) s ∧ errorsOf ev = [] ∧ outputOf ev = out ∧ FloatLines tiny l out
  | [], _, _ => ⟨[], [], .ret, rfl, rfl, .nil⟩
  | nv :: l, h, past => by
    obtain ⟨r, hr⟩ := h nv List.mem_cons_self
    cases r with
    | error m =>
      obtain ⟨ev, out, h1, h2, h3, h4⟩ := printFloatsLoop_runs l (fun x hx => h x (List.mem_cons_of_mem _ hx)) past
      refine ⟨ev, out, ?_, h2, h3, .other hr h4⟩
      rw [printFloatsLoop, hr]
      exact h1
    | ok x =>
      obtain ⟨ev, out, h1, h2, h3, h4⟩ := printFloatsLoop_runs l (fun x hx => h x (List.mem_cons_of_mem _ hx))
        (past ++ [.logline (cstr nv.key ++ lit ": " ++ Fl.printF x)])
      refine ⟨.logline (cstr nv.key ++ lit ": " ++ Fl.printF x) :: ev, _, ?_, h2, ?_, .number hr (printF_places x) h4⟩
      · rw [printFloatsLoop, hr]
        exact .logline h1
      · rw [← h3]
        rfl

theorem save_entries (pl : Platform) : saveGameDecl.entries pl = [(lit "Disk", 0), (lit "Memory", 1)] := by
  obtain ⟨a, b, c, d⟩ := pl
  cases a <;> cases b <;> cases c <;> cases d <;> decide +kernel

theorem enumName_save (pl : Platform) (t : Int) : enumName (saveGameDecl.entries pl) t = saveName t := by
  rw [save_entries]
  unfold saveName
  split
  · subst t; rfl
  · split
    · subst t; rfl
    · rename_i h0 h1
      rw [enumName, List.find?_cons_of_neg (by simpa using Ne.symm h0), List.find?_cons_of_neg (by simpa using Ne.symm h1)]
      rfl

theorem namedAfter_plain {l : List Named} {past : List CtxEvent} (h : ∀ e ∈ past, ∀ i v, e ≠ .setNamed i v) : namedAfter l past = l := by
  induction past generalizing l with
  | nil => rfl
  | cons e past ih =>
    cases e with
    | setNamed i v => exact absurd rfl (h _ List.mem_cons_self i v)
    | _ => exact ih fun e he => h e (List.mem_cons_of_mem _ he)

/-- Showing a value, and going on. -/
theorem showAny_runs {label : Bytes} {v : Value} {es : List Bytes} {out : Bytes} (h : AnyShown pl label v es out) :
    ∃ ev, errorsOf ev = es ∧ outputOf ev = out ∧ (∀ e ∈ ev, ∀ i v, e ≠ .setNamed i v) ∧ ∀ (k : Prog W C D Unit) past ev' e s',
      Runs ops ne f named (past ++ ev) k s ev' e s' → Runs ops ne f named past (showAny pl label v k) s (ev ++ ev') e s' := by
  cases h with
  | yes h =>
    refine ⟨[.logline (label ++ lit "true")], rfl, by simp [outputOf, CtxEvent.text]; rfl, by simp, fun k past ev' e s' hk => ?_⟩
    simp only [showAny, h]
    exact .logline hk
  | no h =>
    refine ⟨[.logline (label ++ lit "false")], rfl, by simp [outputOf, CtxEvent.text]; rfl, by simp, fun k past ev' e s' hk => ?_⟩
    simp only [showAny, h]
    exact .logline hk
  | whole h hz =>
    refine ⟨[.logline (label ++ intDec _)], rfl, by simp [outputOf, CtxEvent.text]; rfl, by simp, fun k past ev' e s' hk => ?_⟩
    simp only [showAny, h, Prog.ofRes, Prog.bind, hz]
    exact .logline hk
  | neither h hz =>
    refine ⟨[.error _, .error _], rfl, rfl, by simp, fun k past ev' e s' hk => ?_⟩
    simp only [showAny, h, Prog.ofRes, Prog.bind, hz]
    exact .reportError (.reportError (by simpa using hk))

theorem single_defined (v : Value) : ∃ r, (singleConv tiny).fromString v = .ok r := by
  simp only [singleConv, floatConv, arithConv]
  split
  · split
    · exact ⟨_, rfl⟩
    · exact ⟨_, rfl⟩
  · exact ⟨_, rfl⟩

theorem named_there {key : Bytes} {v : Value} {required : Bool} {past : List CtxEvent} (h : FirstNamed key (namedAfter named past) v) :
    Runs ops ne f named past (namedGetOrReport key required) s [] (.ret (some v)) s :=
  Runs.bind_ret ((C37_found h).2 ⟨rfl, rfl, rfl⟩) .ret

end Helpers

/-! ## C105 -/

/-- **C105.** `print_args` prints each named argument, in order. -/
theorem C105_args (h : OneForm P ops s name printArgsDef f) (hm : Means s.lexer req ⟨name, [], named⟩) :
    ∃ r, (nested P ops catching (fuel + 1) depth).exec s req = .ok ({ s with calls := s.calls ++ [(depth, f.id)] }, .ok r) ∧
      r.errors = [] ∧ r.returnValue = none ∧
      r.output = (named.map fun nv => cstr nv.key ++ lit ": " ++ cstr (joined nv.value.subvalues) ++ lit "\n").flatten := by
  have hr : Runs ops (nested P ops catching fuel (depth + 1)) f named [] ((printArgsDef (W := W) (C := C) (D := D)).body ())
      { s with calls := s.calls ++ [(depth, f.id)] }
      (named.map fun nv => CtxEvent.logline (cstr nv.key ++ lit ": " ++ cstr nv.value.str)) (.ret ())
      { s with calls := s.calls ++ [(depth, f.id)] } := .named (printArgsLoop_runs _ _)
  have he : (named.map fun nv => CtxEvent.logline (cstr nv.key ++ lit ": " ++ cstr nv.value.str)) =
      (named.map fun nv => cstr nv.key ++ lit ": " ++ cstr nv.value.str).map CtxEvent.logline := by simp
  rw [he] at hr
  refine ⟨_, h.returns hm (xs := ()) trivial hr, ?_, ?_, ?_⟩
  · exact errorsOf_lines _
  · simp only [errorsOf_lines]
    rfl
  · show outputOf ((named.map fun nv => cstr nv.key ++ lit ": " ++ cstr nv.value.str).map CtxEvent.logline) = _
    rw [outputOf_lines, List.map_map]
    simp only [Function.comp_def, str_eq_joined]

/-- **C105.** `print_floats` prints the named arguments that are numbers, to six places. -/
theorem C105_floats (h : OneForm P ops s name (printFloatsDef tiny) f) (hm : Means s.lexer req ⟨name, [], named⟩) :
    ∃ r, (nested P ops catching (fuel + 1) depth).exec s req = .ok ({ s with calls := s.calls ++ [(depth, f.id)] }, .ok r) ∧
      r.errors = [] ∧ r.returnValue = none ∧ FloatLines tiny named r.output := by
  obtain ⟨ev, out, h1, h2, h3, h4⟩ := printFloatsLoop_runs (ops := ops) (f := f) (named := named) (tiny := tiny)
    (s := { s with calls := s.calls ++ [(depth, f.id)] }) (ne := nested P ops catching fuel (depth + 1)) named
    (fun nv _ => single_defined nv.value) []
  have hr : Runs ops (nested P ops catching fuel (depth + 1)) f named [] ((printFloatsDef (W := W) (C := C) (D := D) tiny).body ())
      { s with calls := s.calls ++ [(depth, f.id)] } ev (.ret ()) { s with calls := s.calls ++ [(depth, f.id)] } := .named h1
  refine ⟨_, h.returns hm (xs := ()) trivial hr, h2, ?_, h3 ▸ h4⟩
  simp only [h2]
  rfl

/-- **C105.** A line for a named argument whose value is a text of a number. -/
theorem C105_number {out : Bytes} (h : FloatLines tiny named out) {key b : Bytes} (hb : ⟨key, ⟨[b]⟩⟩ ∈ named) {q : ℚ} (hq : ReadsNumber b q)
    (h0 : NotTiny .single q) (hg : |q| ≤ greatest .single) :
    ∃ before t after r, out = before ++ (cstr key ++ lit ": " ++ t ++ lit "\n") ++ after ∧ ReadsNumber t r ∧
      |r - q| ≤ 1 / 2 ^ 24 * |q| + 5 / 10 ^ 7 ∧ (∀ z : Int, q = z → z ≠ 0 → z.natAbs ≤ 2 ^ 24 → t = intDec z ++ lit ".000000") := by
  obtain ⟨x, x1, x2, x3, x4⟩ := read_error (tiny := tiny) proper_single (lit "float") hq h0 hg
  rw [roundoff_single] at x3
  induction h with
  | nil => cases hb
  | @other nv rest m out hm _ ih =>
    rcases List.mem_cons.1 hb with rfl | hb
    · exact absurd (hm.symm.trans x1) (by simp)
    · exact ih hb
  | @number nv rest y t out hy ht _ ih =>
    rcases List.mem_cons.1 hb with rfl | hb
    · obtain rfl : y = x := by simpa using hy.symm.trans x1
      obtain ⟨neg, m, e, rfl, _⟩ := x2
      rw [val_fin] at x3 x4
      obtain ⟨k, f, r, t1, t2, t3, t4, t5⟩ := ht
      refine ⟨[], t, out, r, rfl, t3, ?_, ?_⟩
      · have a1 := abs_sub_le r (finVal neg m e) q
        norm_num at x3 t4 ⊢
        linarith
      · rintro z rfl hz hl
        exact t5 z (x4 (member_whole proper_single single_facts.1 hl)) hz
    · obtain ⟨before, t', after, r, h1, h2⟩ := ih hb
      exact ⟨cstr nv.key ++ lit ": " ++ t ++ lit "\n" ++ before, t', after, r, by rw [h1]; simp, h2⟩

/-- **C105.** `save_game` tells the kind and the delay, or what is wrong with them. -/
theorem C105_save (h : OneForm P ops s name (saveGameDef pl tiny) f) (hm : Means s.lexer req ⟨name, [], named⟩)
    {e1 e2 : List Bytes} {ty : Option Int} {d : Option Fl} (h1 : Asked (enumConv pl saveGameDecl) (lit "type") true none named e1 ty)
    (h2 : Asked (singleConv tiny) (lit "delay") false (some (.fin false 0 Fmt.single.emin)) named e2 d) :
    ∃ r, (nested P ops catching (fuel + 1) depth).exec s req = .ok ({ s with calls := s.calls ++ [(depth, f.id)] }, .ok r) ∧
      r.errors = e1 ++ e2 ∧ r.returnValue = none ∧ (e1 ++ e2 ≠ [] → r.output = []) ∧
      (e1 ++ e2 = [] → ∃ k x t, ty = some k ∧ d = some x ∧ SixPlaces x t ∧
        r.output = lit "Saving game with type " ++ saveName k ++ lit " and delay " ++ t ++ lit " ms\n") := by
  have kf : ∀ k, k ∈ [lit "type", lit "delay"] → NulFree k := by unfold NulFree; decide
  have ha : e1 = [] ∧ (∃ x, ty = some x) ∨ e1 ≠ [] ∧ ty = none := by cases h1 <;> simp_all
  have ht : e2 = [] ∧ (∃ x, d = some x) ∨ e2 ≠ [] ∧ d = none := by cases h2 <;> simp_all
  have done : ∀ ev, Runs ops (nested P ops catching fuel (depth + 1)) f named (([] ++ e1 ++ e2).map .error)
      (match ty, d with
        | some t, some d => .logline (lit "Saving game with type " ++ enumName (saveGameDecl.entries pl) t ++ lit " and delay " ++
            Fl.printF d ++ lit " ms") (.ret ())
        | _, _ => .ret ())
      { s with calls := s.calls ++ [(depth, f.id)] } ev (.ret ()) { s with calls := s.calls ++ [(depth, f.id)] } → errorsOf ev = [] →
      ∃ r, (nested P ops catching (fuel + 1) depth).exec s req = .ok ({ s with calls := s.calls ++ [(depth, f.id)] }, .ok r) ∧
        r.errors = e1 ++ e2 ∧ r.returnValue = none ∧ r.output = outputOf ev := by
    intro ev hr hev
    have hr : Runs ops (nested P ops catching fuel (depth + 1)) f named [] ((saveGameDef (W := W) (C := C) (D := D) pl tiny).body ())
        { s with calls := s.calls ++ [(depth, f.id)] } (e1.map .error ++ (e2.map .error ++ ev)) (.ret ())
        { s with calls := s.calls ++ [(depth, f.id)] } := by
      refine asked_bind (before := []) (kf _ (by simp)) h1 ?_
      exact asked_bind (kf _ (by simp)) h2 hr
    refine ⟨_, h.returns hm (xs := ()) trivial hr, ?_, ?_, ?_⟩
    all_goals simp only [errorsOf_append, outputOf_append, errorsOf_errors, outputOf_errors, hev]
    · simp
    · exact ite_self _
    · simp
  rcases ha with ⟨rfl, k, rfl⟩ | ⟨he, rfl⟩
  · rcases ht with ⟨rfl, x, rfl⟩ | ⟨he, rfl⟩
    · obtain ⟨r, r1, r2, r3, r4⟩ := done _ (.logline .ret) rfl
      refine ⟨r, r1, r2, r3, by simp, fun _ => ⟨k, x, _, rfl, rfl, printF_places x, ?_⟩⟩
      rw [r4, enumName_save]
      simp [outputOf, CtxEvent.text]
      rfl
    · obtain ⟨r, r1, r2, r3, r4⟩ := done [] .ret rfl
      exact ⟨r, r1, r2, r3, fun _ => r4, fun hc => absurd hc (by simp [he])⟩
  · obtain ⟨r, r1, r2, r3, r4⟩ := done [] .ret rfl
    exact ⟨r, r1, r2, r3, fun _ => r4, fun hc => absurd hc (by simp [he])⟩

/-- **C105.** `required_and_optional` without the required argument. -/
theorem C105_missing (h : OneForm P ops s name (requiredAndOptionalDef pl) f) (hm : Means s.lexer req ⟨name, [], named⟩)
    (h1 : NotNamed (lit "required") named) :
    ∃ r, (nested P ops catching (fuel + 1) depth).exec s req = .ok ({ s with calls := s.calls ++ [(depth, f.id)] }, .ok r) ∧
      r.errors = [lit "Missing named argument 'required'"] ∧ r.returnValue = none ∧ r.output = [] := by
  have hr : Runs ops (nested P ops catching fuel (depth + 1)) f named [] ((requiredAndOptionalDef (W := W) (C := C) (D := D) pl).body ())
      { s with calls := s.calls ++ [(depth, f.id)] } [.error (lit "Missing named argument 'required'")] (.ret ())
      { s with calls := s.calls ++ [(depth, f.id)] } := by
    simp only [requiredAndOptionalDef, namedGetOrReport, namedGet, Prog.bind]
    refine .named ?_
    rw [show namedFind (lit "required") (namedAfter named []) = none from namedFind_none.2 h1]
    exact .reportError .ret
  exact ⟨_, h.returns hm (xs := ()) trivial hr, rfl, rfl, rfl⟩

/-- **C105.** `required_and_optional` shows both arguments, each as a truth value or else as a whole number, or what is wrong with them. -/
theorem C105_both (h : OneForm P ops s name (requiredAndOptionalDef pl) f) (hm : Means s.lexer req ⟨name, [], named⟩)
    {v : Value} {e1 e2 : List Bytes} {o1 o2 : Bytes} (h1 : FirstNamed (lit "required") named v) (h2 : AnyShown pl (lit "Required: ") v e1 o1)
    (h3 : OptionalShown pl (lit "Optional: ") (lit "optional") named e2 o2) :
    ∃ r, (nested P ops catching (fuel + 1) depth).exec s req = .ok ({ s with calls := s.calls ++ [(depth, f.id)] }, .ok r) ∧
      r.errors = e1 ++ e2 ∧ r.returnValue = none ∧ r.output = o1 ++ o2 := by
  obtain ⟨ev1, a1, a2, a3, a4⟩ := showAny_runs (ops := ops) (f := f) (named := named)
    (s := { s with calls := s.calls ++ [(depth, f.id)] }) (ne := nested P ops catching fuel (depth + 1)) h2
  have hn : namedAfter named ([] ++ ev1) = named := namedAfter_plain a3
  have hopt : ∃ ev2, errorsOf ev2 = e2 ∧ outputOf ev2 = o2 ∧
      Runs ops (nested P ops catching fuel (depth + 1)) f named ([] ++ ev1)
        ((namedGetOrReport (lit "optional") false).bind fun
          | none => .ret ()
          | some o => showAny pl (lit "Optional: ") o (.ret ()))
        { s with calls := s.calls ++ [(depth, f.id)] } ev2 (.ret ()) { s with calls := s.calls ++ [(depth, f.id)] } := by
    cases h3 with
    | missing h3 =>
      refine ⟨[], rfl, rfl, ?_⟩
      simp only [namedGetOrReport, namedGet, Prog.bind]
      refine .named ?_
      rw [hn, namedFind_none.2 h3]
      exact .ret
    | there h3 h4 =>
      obtain ⟨ev2, b1, b2, b3, b4⟩ := showAny_runs (ops := ops) (f := f) (named := named)
        (s := { s with calls := s.calls ++ [(depth, f.id)] }) (ne := nested P ops catching fuel (depth + 1)) h4
      refine ⟨ev2, b1, b2, ?_⟩
      refine Runs.bind_ret (named_there (hn.symm ▸ h3)) ?_
      have := b4 (.ret ()) ([] ++ ev1) [] (.ret ()) _ .ret
      simpa using this
  obtain ⟨ev2, b1, b2, b3⟩ := hopt
  have hr : Runs ops (nested P ops catching fuel (depth + 1)) f named [] ((requiredAndOptionalDef (W := W) (C := C) (D := D) pl).body ())
      { s with calls := s.calls ++ [(depth, f.id)] } ([] ++ (ev1 ++ ev2)) (.ret ()) { s with calls := s.calls ++ [(depth, f.id)] } :=
    Runs.bind_ret (named_there h1) (a4 _ [] ev2 _ _ b3)
  refine ⟨_, h.returns hm (xs := ()) trivial hr, ?_, ?_, ?_⟩
  all_goals simp only [List.nil_append, errorsOf_append, outputOf_append, a1, a2, b1, b2]
  exact ite_self _

namespace Demo

example : (execNam ["print_args arg1 = value1 arg2 = (0.1 2) arg3 = true", "print_floats arg1 = value1 arg2 = 0.1 arg3 = true arg4 = -31.415",
      "save_game type=disk", "save_game type=Memory delay=150", "save_game type=7", "save_game type=Memori delay=none", "save_game"]) =
    .ok [some (⟨[], none⟩, lit "arg1: value1\narg2: 0.1 2\narg3: true\n"), some (⟨[], none⟩, lit "arg2: 0.100000\narg4: -31.415001\n"),
      some (⟨[], none⟩, lit "Saving game with type Disk and delay 0.000000 ms\n"),
      some (⟨[], none⟩, lit "Saving game with type Memory and delay 150.000000 ms\n"),
      some (⟨[], none⟩, lit "Saving game with type  and delay 0.000000 ms\n"),
      some (⟨[lit "Unable to convert 'Memori' to type 'SaveGameType': Possible values are ['Disk', 'Memory']", lit "Unable to convert 'none' to type 'float'"], none⟩, []),
      some (⟨[lit "Missing named argument 'type'"], none⟩, [])] := by
  decide +kernel

example : (execNam ["required_and_optional", "required_and_optional required=3.14 optional=1", "required_and_optional required=true optional=1.5",
      "required_and_optional required=10"]) =
    .ok [some (⟨[lit "Missing named argument 'required'"], none⟩, []),
      some (⟨[lit "Unable to convert '3.14' to type 'bool'", lit "Unable to convert '3.14' to type 'int'"], none⟩, lit "Optional: true\n"),
      some (⟨[lit "Unable to convert '1.5' to type 'bool'", lit "Unable to convert '1.5' to type 'int'"], none⟩, lit "Required: true\n"),
      some (⟨[], none⟩, lit "Required: 10\n")] := by
  decide +kernel

/-- The hypotheses of `C105_both` hold for a line of the example. -/
example : FirstNamed (lit "required") [⟨lit "required", ⟨[lit "10"]⟩⟩, ⟨lit "optional", ⟨[lit "on"]⟩⟩] ⟨[lit "10"]⟩ ∧
    AnyShown linux64 (lit "Required: ") ⟨[lit "10"]⟩ [] (lit "Required: 10\n") ∧
    OptionalShown linux64 (lit "Optional: ") (lit "optional") [⟨lit "required", ⟨[lit "10"]⟩⟩, ⟨lit "optional", ⟨[lit "on"]⟩⟩]
      [lit "Unable to convert 'on' to type 'bool'", lit "Unable to convert 'on' to type 'int'"] [] := by
  refine ⟨⟨[], [_], rfl, by decide⟩, .whole (z := 10) (eb := lit "Unable to convert '10' to type 'bool'") ?_ ?_,
    .there ⟨[_], [], rfl, by decide⟩ (.neither ?_ ?_)⟩ <;> decide +kernel

end Demo

end Coil
