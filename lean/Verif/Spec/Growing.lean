import Verif.Spec.Fixed

/-!
# Programs whose commands make commands

Some programs go on registering commands while they run: a command can add commands, or replace commands that there are, itself too. Such a
program is told here with a table that grows, in which the last entry for a name counts. There are no function objects and no lifetimes. What
remains of them is this: a function whose command has been replaced while it runs may not look at the data it has captured.
-/

namespace Coil.Spec

variable {W C D : Type}

/-- A function body that may add commands, but removes none and executes none. -/
inductive Growing {R : Type} : Prog W C D R → Prop
  | ret {r} : Growing (.ret r)
  | throw {e} : Growing (.throw e)
  | ub {u} : Growing (.ub u)
  | diverge : Growing .diverge
  | log {t k} : Growing k → Growing (.log t k)
  | logline {t k} : Growing k → Growing (.logline t k)
  | reportError {t k} : Growing k → Growing (.reportError t k)
  | hasErrors {k} : (∀ b, Growing (k b)) → Growing (.hasErrors k)
  | named {k} : (∀ l, Growing (k l)) → Growing (.named k)
  | setNamed {i v k} : Growing k → Growing (.setNamed i v k)
  | get {k} : (∀ w, Growing (k w)) → Growing (.get k)
  | set {w k} : Growing k → Growing (.set w k)
  | captured {k} : (∀ d, Growing (k d)) → Growing (.captured k)
  | add {n fs k} : Growing k → Growing (.add n fs k)

/-- All functions of the program are such. -/
def AllGrowing (P : C → FunctorDef W C D) : Prop := ∀ c xs, Growing ((P c).body xs)

/-- The commands there are, and the state. -/
structure Standing (W C D : Type) where
  table : Table C D
  user : W

/-- One more entry in the table. -/
def Standing.more (S : Standing W C D) (n : Bytes) (fs : List (C × D)) : Standing W C D := ⟨S.table ++ [(n, fs)], S.user⟩

/-- `Recounts x l me past p here S es e S'`: the body `p` of a function of the command `me` with the captured data `x`, started in `S` after the calls
`past`, with the original named arguments `l`, makes the calls `es`, ends with `e` and leaves `S'`. `here` says that the command `me` has not been
replaced yet since the function was called. -/
inductive Recounts {R : Type} (x : D) (l : List Named) (me : Bytes) :
    List CtxEvent → Prog W C D R → Bool → Standing W C D → List CtxEvent → End R → Standing W C D → Prop
  | ret {past r here S} : Recounts x l me past (.ret r) here S [] (.ret r) S
  | throw {past e here S} : Recounts x l me past (.throw e) here S [] (.exn e) S
  | log {past t k here S es e S'} : Recounts x l me (past ++ [.log t]) k here S es e S' → Recounts x l me past (.log t k) here S (.log t :: es) e S'
  | logline {past t k here S es e S'} : Recounts x l me (past ++ [.logline t]) k here S es e S' →
      Recounts x l me past (.logline t k) here S (.logline t :: es) e S'
  | reportError {past t k here S es e S'} : Recounts x l me (past ++ [.error t]) k here S es e S' →
      Recounts x l me past (.reportError t k) here S (.error t :: es) e S'
  | hasErrors {past k here S es e S'} : Recounts x l me past (k (decide (errorsOf past ≠ []))) here S es e S' →
      Recounts x l me past (.hasErrors k) here S es e S'
  | named {past k here S es e S'} : Recounts x l me past (k (namedAfter l past)) here S es e S' → Recounts x l me past (.named k) here S es e S'
  | setNamed {past i v k here S es e S'} : i < l.length → Recounts x l me (past ++ [.setNamed i v]) k here S es e S' →
      Recounts x l me past (.setNamed i v k) here S (.setNamed i v :: es) e S'
  | get {past k here S es e S'} : Recounts x l me past (k S.user) here S es e S' → Recounts x l me past (.get k) here S es e S'
  | set {past v k here S es e S'} : Recounts x l me past k here ⟨S.table, v⟩ es e S' → Recounts x l me past (.set v k) here S es e S'
  /-- captured data can be read as long as the command has not been replaced -/
  | captured {past k S es e S'} : Recounts x l me past (k x) true S es e S' → Recounts x l me past (.captured k) true S es e S'
  | add {past n fs k here S es e S'} : Recounts x l me past k (here && decide (n ≠ me)) (S.more n fs) es e S' →
      Recounts x l me past (.add n fs k) here S es e S'

/-- `Responds P catching S i S' out`: in `S` the command `i` gives `out` and leaves `S'`. -/
inductive Responds (P : C → FunctorDef W C D) (catching : Bool) (S : Standing W C D) (i : Input) : Standing W C D → ExecOut → Prop
  | noName : i.name = [] → Responds P catching S i S (.ok ⟨i, [lit "No function name is specified"], none, []⟩)
  | unknown : i.name ≠ [] → S.table.functions i.name = none →
      Responds P catching S i S (.ok ⟨i, [lit "No function '" ++ upToNul i.name ++ lit "' is registered"], none, []⟩)
  | count {fs} : i.name ≠ [] → S.table.functions i.name = some fs → (∀ f ∈ fs, (P f.1).params.length ≠ i.arguments.length) →
      Responds P catching S i S (.ok ⟨i, [lit "Wrong number of arguments to '" ++ upToNul i.name ++ lit "': expected " ++
        countsInWords (fs.map (fun f => (P f.1).params.length)) ++ lit ", got " ++ natDec i.arguments.length], none, []⟩)
  | mismatch {fs f} : i.name ≠ [] → S.table.functions i.name = some fs → FirstTaking P i.arguments.length fs f →
      ConversionsDefined (P f.1).params i.arguments → conversionErrors (P f.1).params i.arguments ≠ [] →
      Responds P catching S i S (.ok ⟨i, conversionErrors (P f.1).params i.arguments, none, []⟩)
  | returned {fs f xs es r S'} : i.name ≠ [] → S.table.functions i.name = some fs → FirstTaking P i.arguments.length fs f →
      ConvertTo (P f.1).params i.arguments xs → Recounts f.2 i.namedArguments i.name [] ((P f.1).body xs) true S es (.ret r) S' →
      Responds P catching S i S' (.ok { resultAfter i es with
        returnValue := if errorsOf es = [] then (P f.1).print.map (fun p => p r) else none })
  | thrown {fs f xs es e S'} : i.name ≠ [] → S.table.functions i.name = some fs → FirstTaking P i.arguments.length fs f →
      ConvertTo (P f.1).params i.arguments xs → Recounts f.2 i.namedArguments i.name [] ((P f.1).body xs) true S es (.exn e) S' →
      Responds P catching S i S' (if catching then .ok { resultAfter i es with errors := errorsOf es ++ [exceptionError e] } else .error e)

/-- `Growth P catching d S reqs outs S'`: a conversation: from `S` on, the requests give the results `outs` and lead to `S'`. -/
inductive Growth (P : C → FunctorDef W C D) (catching : Bool) (d : Delims) : Standing W C D → List Request → List ExecOut → Standing W C D → Prop
  | nil {S} : Growth P catching d S [] [] S
  | wrong {S t m rest outs S'} : ReadsAs d t (.error m) → Growth P catching d S rest outs S' →
      Growth P catching d S (.line t :: rest) (.ok ⟨⟨[], [], []⟩, [lit "Syntax error: " ++ m], none, []⟩ :: outs) S'
  | line {S t i S1 out rest outs S'} : ReadsAs d t (.ok i) → Responds P catching S i S1 out → Growth P catching d S1 rest outs S' →
      Growth P catching d S (.line t :: rest) (out :: outs) S'
  | input {S i S1 out rest outs S'} : Responds P catching S i S1 out → Growth P catching d S1 rest outs S' →
      Growth P catching d S (.input i :: rest) (out :: outs) S'

/-- A command can be answered: it is not known or has the wrong number of arguments, or the conversions of its arguments are defined and, if they all
succeed, the function comes to an end. -/
def Responsive (P : C → FunctorDef W C D) (S : Standing W C D) (i : Input) : Prop :=
  ∀ fs f, i.name ≠ [] → S.table.functions i.name = some fs → FirstTaking P i.arguments.length fs f →
    ConversionsDefined (P f.1).params i.arguments ∧
    ∀ xs, ConvertTo (P f.1).params i.arguments xs → ∃ es e S', Recounts f.2 i.namedArguments i.name [] ((P f.1).body xs) true S es e S'

end Coil.Spec
