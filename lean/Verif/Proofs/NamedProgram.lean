import Verif.Spec.NamedProgram
import Verif.Proofs.EnumPrograms
import Verif.Proofs.ErrorProgram
import Verif.Props.NamedCommands

/-!
# The program of examples/named: lemmas
-/

namespace Coil
open Spec Fl Floats Vw

variable {pl : Platform} {tiny : Nat → Nat → Bool}

/-! ## The enumerations -/

theorem itemSources_plain : PlainConstants itemSources := ⟨by decide +kernel, by decide +kernel, sameWord_dec (by decide +kernel)⟩
theorem itemTypes_plain : PlainConstants itemTypes := ⟨by decide +kernel, by decide +kernel, sameWord_dec (by decide +kernel)⟩
theorem saveTypes_plain : PlainConstants saveTypes := ⟨by decide +kernel, by decide +kernel, sameWord_dec (by decide +kernel)⟩

theorem source_declarable : Declarable pl sourceDecl := declarable_of (cs := itemSources) rfl (by decide +kernel) (by decide +kernel) (by decide +kernel)
theorem itemType_declarable : Declarable pl typeDecl := declarable_of (cs := itemTypes) rfl (by decide +kernel) (by decide +kernel) (by decide +kernel)
theorem save_declarable : Declarable pl saveGameDecl := declarable_of (cs := saveTypes) rfl (by decide +kernel) (by decide +kernel) (by decide +kernel)

theorem source_shows (x : Int) : Shown itemSources x (enumName (sourceDecl.entries pl) x) := plain_shows source_declarable itemSources_plain x
theorem itemType_shows (x : Int) : Shown itemTypes x (enumName (typeDecl.entries pl) x) := plain_shows itemType_declarable itemTypes_plain x
theorem save_shows (x : Int) : Shown saveTypes x (enumName (saveGameDecl.entries pl) x) := plain_shows save_declarable saveTypes_plain x

theorem itemLine_is_line (i : Item Bytes) : ItemLine i (itemLine pl i i.name ++ lit "\n") := ⟨_, _, source_shows _, itemType_shows _, rfl⟩

/-! ## What the functions do -/

section Bodies

variable {S C D : Type} {ops : RegOps S C D} {ne : Nested S (List (Item Bytes)) C D} {f : Inst C D} {named : List Named}
  {s : Sys S (List (Item Bytes)) C D}

theorem listLoop_lines {n : Option Bytes} {a so ty : Option Int} : ∀ (items : List (Item Bytes)) (past : List CtxEvent),
    ∃ ev shown lines, Runs ops ne f named past (listLoopText pl ⟨n, a, so, ty⟩ items) s ev (.ret ()) s ∧ errorsOf ev = [] ∧
      Chosen (Wanted n a so ty) items shown ∧ Forall2 ItemLine shown lines ∧ outputOf ev = lines.flatten := by
  intro items
  induction items with
  | nil => exact fun _ => ⟨[], [], [], .ret, rfl, .nil, .nil, rfl⟩
  | cons i items ih =>
    intro past
    simp only [listLoopText]
    split
    case isTrue h =>
      obtain ⟨ev, shown, lines, h1, h2, h3, h4, h5⟩ := ih (past ++ [.logline (itemLine pl i i.name)])
      refine ⟨_, i :: shown, _, .logline h1, h2, .take (filter_iff.1 h) h3, .cons (itemLine_is_line (pl := pl) i) h4, ?_⟩
      rw [List.flatten_cons, ← h5]
      exact outputOf_logline _ _
    case isFalse h =>
      obtain ⟨ev, shown, lines, h1, h2, h3, h4, h5⟩ := ih past
      exact ⟨ev, shown, lines, h1, h2, .skip (fun hw => h (filter_iff.2 hw)) h3, h4, h5⟩

theorem list_runs (pl : Platform) (named : List Named) : ∃ ev, Runs ops ne f named [] ((listTextDef pl .ulong).body ()) s ev (.ret ()) s ∧
    NamedAccount pl tiny s.user ⟨lit "inventory.list", [], named⟩ s.user ⟨errorsOf ev, none, outputOf ev, none⟩ := by
  have kf : ∀ k, k ∈ [lit "name", lit "min_amount", lit "source", lit "type"] → NulFree k := by unfold NulFree; decide
  obtain ⟨e1, n, h1⟩ := asked_total stringConv (lit "name") false none named string_converts
  obtain ⟨e2, a, h2⟩ := asked_total (intConv pl .ulong) (lit "min_amount") false none named int_converts
  obtain ⟨e3, so, h3⟩ := asked_total (enumConv pl sourceDecl) (lit "source") false none named (C85_defined_partial rfl)
  obtain ⟨e4, ty, h4⟩ := asked_total (enumConv pl typeDecl) (lit "type") false none named (C85_defined_partial rfl)
  have hasked : ListAsked pl named (e1 ++ e2 ++ e3 ++ e4) n a so ty := ⟨e1, e2, e3, e4, rfl, h1, h2, h3, h4⟩
  have whole : ∀ ev, Runs ops ne f named (([] ++ e1 ++ e2 ++ e3 ++ e4).map .error)
      (.hasErrors fun b =>
        if b then .ret ()
        else .logline (lit "ID\tName\tAmount\tSource\tType") <| .logline (lit "--\t----\t------\t------\t----") <|
          .get fun items => listLoopText pl ⟨n, a, so, ty⟩ items) s ev (.ret ()) s →
      Runs ops ne f named [] ((listTextDef pl .ulong).body ()) s (e1.map .error ++ (e2.map .error ++ (e3.map .error ++ (e4.map .error ++ ev))))
        (.ret ()) s := by
    intro ev hend
    refine asked_bind (before := []) (kf _ (by simp)) h1 ?_
    refine asked_bind (kf _ (by simp)) h2 ?_
    refine asked_bind (kf _ (by simp)) h3 ?_
    exact asked_bind (kf _ (by simp)) h4 hend
  by_cases he : e1 ++ e2 ++ e3 ++ e4 = []
  · obtain ⟨ev, shown, lines, r1, r2, r3, r4, r5⟩ := listLoop_lines (ops := ops) (f := f) (named := named) (pl := pl) (n := n) (a := a) (so := so) (ty := ty)
      (s := s) (ne := ne) s.user ((([] ++ e1 ++ e2 ++ e3 ++ e4).map CtxEvent.error ++ [.logline (lit "ID\tName\tAmount\tSource\tType")]) ++
        [.logline (lit "--\t----\t------\t------\t----")])
    refine ⟨_, whole (.logline (lit "ID\tName\tAmount\tSource\tType") :: .logline (lit "--\t----\t------\t------\t----") :: ev) (.hasErrors ?_), ?_⟩
    · rw [errorsOf_errors, List.nil_append, if_neg (by simpa using he)]
      exact .logline (.logline (.get (by simpa using r1)))
    · rw [he] at hasked
      have hx : e1 = [] ∧ e2 = [] ∧ e3 = [] ∧ e4 = [] := by simpa [and_assoc] using he
      obtain ⟨rfl, rfl, rfl, rfl⟩ := hx
      have := NamedAccount.list (tiny := tiny) hasked r3 r4
      have ho : outputOf (CtxEvent.logline (lit "ID\tName\tAmount\tSource\tType") :: CtxEvent.logline (lit "--\t----\t------\t------\t----") :: ev) =
          tableHead ++ lines.flatten := by
        have ht : tableHead = lit "ID\tName\tAmount\tSource\tType" ++ lit "\n" ++ (lit "--\t----\t------\t------\t----" ++ lit "\n") := by decide +kernel
        rw [outputOf_logline, outputOf_logline, r5, ht]
        simp only [List.append_assoc]
      have hee : errorsOf (CtxEvent.logline (lit "ID\tName\tAmount\tSource\tType") :: CtxEvent.logline (lit "--\t----\t------\t------\t----") :: ev) = [] := r2
      simp only [List.map_nil, List.nil_append]
      rw [ho, hee]
      exact this
  · refine ⟨_, whole [] (.hasErrors ?_), ?_⟩
    · rw [errorsOf_errors, List.nil_append, if_pos (decide_eq_true he)]
      exact .ret
    · have := NamedAccount.noList (tiny := tiny) (h := s.user) hasked he
      have e' : errorsOf (e1.map CtxEvent.error ++ (e2.map .error ++ (e3.map .error ++ (e4.map .error ++ [])))) = e1 ++ e2 ++ e3 ++ e4 := by
        simp only [errorsOf_append, errorsOf_errors]
        simp [errorsOf]
      have o' : outputOf (e1.map CtxEvent.error ++ (e2.map .error ++ (e3.map .error ++ (e4.map .error ++ [])))) = [] := by
        simp only [outputOf_append, outputOf_errors]
        rfl
      rw [e', o']
      exact this

theorem add_runs (pl : Platform) (named : List Named) (t : Bytes) (z : Int) :
    ∃ ev s', Runs ops ne f named [] ((addTextDef pl .ulong).body (z, t, ())) s ev (.ret ()) s' ∧ ∀ i, IndexText i z →
      NamedAccount pl tiny s.user ⟨lit "inventory.add", [⟨[i]⟩, ⟨[t]⟩], named⟩ s'.user ⟨errorsOf ev, none, outputOf ev, none⟩ := by
  have kf : ∀ k, k ∈ [lit "amount", lit "type"] → NulFree k := by unfold NulFree; decide
  obtain ⟨e1, a, h1⟩ := asked_total (intConv pl .ulong) (lit "amount") false (some 1) named int_converts
  obtain ⟨e2, ty, h2⟩ := asked_total (enumConv pl typeDecl) (lit "type") false (some 2) named (C85_defined_partial rfl)
  have hasked : AddAsked pl named (e1 ++ e2) a ty := ⟨e1, e2, rfl, h1, h2⟩
  have ha : e1 = [] ∧ (∃ x, a = some x) ∨ e1 ≠ [] ∧ a = none := by cases h1 <;> simp
  have ht : e2 = [] ∧ (∃ x, ty = some x) ∨ e2 ≠ [] ∧ ty = none := by cases h2 <;> simp
  have whole : ∀ s', Runs ops ne f named (([] ++ e1 ++ e2).map .error)
      (match a, ty with
        | some x, some k => .get fun items => .set (items ++ [⟨z, t, x, 3, k⟩]) (.ret ())
        | _, _ => .ret ()) s [] (.ret ()) s' →
      Runs ops ne f named [] ((addTextDef pl .ulong).body (z, t, ())) s (e1.map .error ++ (e2.map .error ++ [])) (.ret ()) s' := by
    intro s' hend
    refine asked_bind (before := []) (kf _ (by simp)) h1 ?_
    exact asked_bind (kf _ (by simp)) h2 hend
  have bad : e1 ++ e2 ≠ [] → ∀ i, IndexText i z → NamedAccount pl tiny s.user ⟨lit "inventory.add", [⟨[i]⟩, ⟨[t]⟩], named⟩ s.user
      ⟨errorsOf (e1.map CtxEvent.error ++ (e2.map .error ++ [])), none, outputOf (e1.map CtxEvent.error ++ (e2.map .error ++ [])), none⟩ := by
    intro he i hz
    have := NamedAccount.noAdd (tiny := tiny) (h := s.user) (t := t) hz hasked he
    have e' : errorsOf (e1.map CtxEvent.error ++ (e2.map .error ++ [])) = e1 ++ e2 := by
      simp only [errorsOf_append, errorsOf_errors]
      simp [errorsOf]
    have o' : outputOf (e1.map CtxEvent.error ++ (e2.map .error ++ [])) = [] := by
      simp only [outputOf_append, outputOf_errors]
      rfl
    rw [e', o']
    exact this
  rcases ha with ⟨rfl, x, rfl⟩ | ⟨he, rfl⟩
  · rcases ht with ⟨rfl, k, rfl⟩ | ⟨he, rfl⟩
    · exact ⟨_, { s with user := s.user ++ [⟨z, t, x, 3, k⟩] }, whole _ (.get (.set .ret)), fun i hz => .add hz hasked⟩
    · exact ⟨_, _, whole _ .ret, bad (by simp [he])⟩
  · exact ⟨_, _, whole _ .ret, bad (by simp [he])⟩

theorem args_runs (named : List Named) : ∃ ev, Runs ops ne f named [] ((printArgsDef (W := List (Item Bytes)) (C := C) (D := D)).body ()) s ev (.ret ()) s ∧
    NamedAccount pl tiny s.user ⟨lit "print_args", [], named⟩ s.user ⟨errorsOf ev, none, outputOf ev, none⟩ := by
  refine ⟨_, .named (printArgsLoop_runs _ _), ?_⟩
  have he : (named.map fun nv => CtxEvent.logline (cstr nv.key ++ lit ": " ++ cstr nv.value.str)) =
      (named.map fun nv => cstr nv.key ++ lit ": " ++ cstr nv.value.str).map CtxEvent.logline := by simp
  have := NamedAccount.args (pl := pl) (tiny := tiny) (h := s.user) (named := named)
  rw [show namedAfter named [] = named from rfl, he, errorsOf_lines, outputOf_lines, List.map_map]
  simp only [Function.comp_def, str_eq_joined]
  exact this

theorem floats_runs (named : List Named) : ∃ ev, Runs ops ne f named [] ((printFloatsDef (W := List (Item Bytes)) (C := C) (D := D) tiny).body ()) s ev (.ret ()) s ∧
    NamedAccount pl tiny s.user ⟨lit "print_floats", [], named⟩ s.user ⟨errorsOf ev, none, outputOf ev, none⟩ := by
  obtain ⟨ev, out, h1, h2, h3, h4⟩ := printFloatsLoop_runs (ops := ops) (f := f) (named := named) (tiny := tiny) (s := s) (ne := ne) named
    (fun nv _ => single_defined nv.value) []
  refine ⟨ev, .named h1, ?_⟩
  rw [h2, h3]
  exact .floats h4

theorem save_runs (pl : Platform) (named : List Named) :
    ∃ ev, Runs ops ne f named [] ((saveGameDef (W := List (Item Bytes)) (C := C) (D := D) pl tiny).body ()) s ev (.ret ()) s ∧
      NamedAccount pl tiny s.user ⟨lit "save_game", [], named⟩ s.user ⟨errorsOf ev, none, outputOf ev, none⟩ := by
  have kf : ∀ k, k ∈ [lit "type", lit "delay"] → NulFree k := by unfold NulFree; decide
  obtain ⟨e1, ty, h1⟩ := asked_total (enumConv pl saveGameDecl) (lit "type") true none named (C85_defined_partial rfl)
  obtain ⟨e2, d, h2⟩ := asked_total (singleConv tiny) (lit "delay") false (some (.fin false 0 Fmt.single.emin)) named single_defined
  have hasked : SaveAsked pl tiny named (e1 ++ e2) ty d := ⟨e1, e2, rfl, h1, h2⟩
  have ha : e1 = [] ∧ (∃ x, ty = some x) ∨ e1 ≠ [] ∧ ty = none := by cases h1 <;> simp_all
  have ht : e2 = [] ∧ (∃ x, d = some x) ∨ e2 ≠ [] ∧ d = none := by cases h2 <;> simp_all
  have whole : ∀ ev, Runs ops ne f named (([] ++ e1 ++ e2).map .error)
      (match ty, d with
        | some t, some d => .logline (lit "Saving game with type " ++ enumName (saveGameDecl.entries pl) t ++ lit " and delay " ++
            Fl.printF d ++ lit " ms") (.ret ())
        | _, _ => .ret ()) s ev (.ret ()) s →
      Runs ops ne f named [] ((saveGameDef (W := List (Item Bytes)) (C := C) (D := D) pl tiny).body ()) s (e1.map .error ++ (e2.map .error ++ ev)) (.ret ()) s := by
    intro ev hend
    refine asked_bind (before := []) (kf _ (by simp)) h1 ?_
    exact asked_bind (kf _ (by simp)) h2 hend
  have bad : e1 ++ e2 ≠ [] → NamedAccount pl tiny s.user ⟨lit "save_game", [], named⟩ s.user
      ⟨errorsOf (e1.map CtxEvent.error ++ (e2.map .error ++ [])), none, outputOf (e1.map CtxEvent.error ++ (e2.map .error ++ [])), none⟩ := by
    intro he
    have := NamedAccount.noSave (h := s.user) hasked he
    have e' : errorsOf (e1.map CtxEvent.error ++ (e2.map .error ++ [])) = e1 ++ e2 := by
      simp only [errorsOf_append, errorsOf_errors]
      simp [errorsOf]
    have o' : outputOf (e1.map CtxEvent.error ++ (e2.map .error ++ [])) = [] := by
      simp only [outputOf_append, outputOf_errors]
      rfl
    rw [e', o']
    exact this
  rcases ha with ⟨rfl, k, rfl⟩ | ⟨he, rfl⟩
  · rcases ht with ⟨rfl, x, rfl⟩ | ⟨he, rfl⟩
    · refine ⟨_, whole _ (.logline .ret), ?_⟩
      have := NamedAccount.save (h := s.user) hasked (save_shows (pl := pl) k) (printF_places x)
      have h3 : ∀ t, outputOf [CtxEvent.logline (t ++ lit " ms")] = t ++ lit " ms\n" := by
        intro t
        rw [outputOf_logline]
        have : lit " ms\n" = lit " ms" ++ lit "\n" := by decide +kernel
        rw [this]
        simp [outputOf]
      have h4 : ∀ t, errorsOf [CtxEvent.logline t] = [] := fun _ => rfl
      simp only [List.map_nil, List.nil_append]
      rw [h3, h4]
      exact this
    · exact ⟨_, whole _ .ret, bad (by simp [he])⟩
  · exact ⟨_, whole _ .ret, bad (by simp [he])⟩

theorem anyShown_total (label : Bytes) {v : Value} (h : ∃ r, (boolConv pl).fromString v = .ok r) : ∃ es out, AnyShown pl label v es out := by
  obtain ⟨r, hr⟩ := h
  cases r with
  | ok b =>
    cases b
    · exact ⟨_, _, .no hr⟩
    · exact ⟨_, _, .yes hr⟩
  | error m =>
    obtain ⟨r, hi⟩ := int_converts (pl := pl) (t := .int) v
    cases r with
    | ok z => exact ⟨_, _, .whole hr hi⟩
    | error m' => exact ⟨_, _, .neither hr hi⟩

theorem both_runs (pl : Platform) (named : List Named) (ht : ¬ NamedTrouble pl ⟨lit "required_and_optional", [], named⟩) :
    ∃ ev, Runs ops ne f named [] ((requiredAndOptionalDef (W := List (Item Bytes)) (C := C) (D := D) pl).body ()) s ev (.ret ()) s ∧
      NamedAccount pl tiny s.user ⟨lit "required_and_optional", [], named⟩ s.user ⟨errorsOf ev, none, outputOf ev, none⟩ := by
  rcases C37_dichotomy (lit "required") named with h1 | ⟨v, h1⟩
  · refine ⟨[.error (lit "Missing named argument 'required'")], ?_, .missing h1⟩
    simp only [requiredAndOptionalDef, namedGetOrReport, namedGet, Prog.bind]
    refine .named ?_
    rw [show namedFind (lit "required") (namedAfter named []) = none from namedFind_none.2 h1]
    exact .reportError .ret
  · have hb : ∃ r, (boolConv pl).fromString v = .ok r :=
      (bool_converts v).2 fun ⟨h2, t, h3, h4⟩ => ht ⟨h2, rfl, rfl, v, h1, .inl ⟨t, h3, h4⟩⟩
    obtain ⟨e1, o1, h2⟩ := anyShown_total (lit "Required: ") hb
    obtain ⟨ev1, a1, a2, a3, a4⟩ := showAny_runs (ops := ops) (f := f) (named := named) (s := s) (ne := ne) h2
    have hn : namedAfter named ([] ++ ev1) = named := namedAfter_plain a3
    have hopt : ∃ ev2, OptionalShown pl (lit "Optional: ") (lit "optional") named (errorsOf ev2) (outputOf ev2) ∧
        Runs ops ne f named ([] ++ ev1)
          ((namedGetOrReport (lit "optional") false).bind fun
            | none => .ret ()
            | some o => showAny pl (lit "Optional: ") o (.ret ())) s ev2 (.ret ()) s := by
      rcases C37_dichotomy (lit "optional") named with h3 | ⟨o, h3⟩
      · refine ⟨[], .missing h3, ?_⟩
        simp only [namedGetOrReport, namedGet, Prog.bind]
        refine .named ?_
        rw [hn, namedFind_none.2 h3]
        exact .ret
      · have hb : ∃ r, (boolConv pl).fromString o = .ok r :=
          (bool_converts o).2 fun ⟨h2, t, h4, h5⟩ => ht ⟨h2, rfl, rfl, v, h1, .inr ⟨t, h4 ▸ h3, h5⟩⟩
        obtain ⟨e2, o2, h4⟩ := anyShown_total (lit "Optional: ") hb
        obtain ⟨ev2, b1, b2, b3, b4⟩ := showAny_runs (ops := ops) (f := f) (named := named) (s := s) (ne := ne) h4
        refine ⟨ev2, .there h3 (by rw [b1, b2]; exact h4), ?_⟩
        refine Runs.bind_ret (named_there (hn.symm ▸ h3)) ?_
        have := b4 (.ret ()) ([] ++ ev1) [] (.ret ()) _ .ret
        simpa using this
    obtain ⟨ev2, b1, b3⟩ := hopt
    refine ⟨[] ++ (ev1 ++ ev2), Runs.bind_ret (named_there h1) (a4 _ [] ev2 _ _ b3), ?_⟩
    simp only [List.nil_append, errorsOf_append, outputOf_append]
    rw [a1, a2]
    exact .both h1 h2 b1

end Bodies

/-! ## Quiet bodies -/

theorem itemLoop_quiet {C D : Type} (flt : Filter) : ∀ items, Quiet (listLoopText (C := C) (D := D) pl flt items)
  | [] => .ret
  | _ :: items => quiet_ite (.logline (itemLoop_quiet flt items)) (itemLoop_quiet flt items)

theorem printArgs_quiet {W C D : Type} : ∀ l, Quiet (printArgsLoop (W := W) (C := C) (D := D) l)
  | [] => .ret
  | _ :: l => .logline (printArgs_quiet l)

theorem printFloats_quiet {W C D : Type} : ∀ l, Quiet (printFloatsLoop (W := W) (C := C) (D := D) tiny l)
  | [] => .ret
  | nv :: l => by
    refine quiet_bind (ofRes_quiet _) fun r => ?_
    cases r with
    | error m => exact printFloats_quiet l
    | ok x => exact .logline (printFloats_quiet l)

theorem showAny_quiet {W C D : Type} {label : Bytes} {v : Value} {k : Prog W C D Unit} (hk : Quiet k) : Quiet (showAny pl label v k) := by
  refine quiet_bind (ofRes_quiet _) fun r => ?_
  cases r with
  | ok b => exact .logline hk
  | error m =>
    refine quiet_bind (ofRes_quiet _) fun r => ?_
    cases r with
    | ok z => exact .logline hk
    | error m' => exact .reportError (.reportError hk)

theorem named_quiet : AllQuiet (namedFunctions pl tiny) := by
  intro c xs
  cases c with
  | list =>
    refine quiet_bind (namedGetOrReportT_quiet _ _ _ _) fun n => quiet_bind (namedGetOrReportT_quiet _ _ _ _) fun a =>
      quiet_bind (namedGetOrReportT_quiet _ _ _ _) fun so => quiet_bind (namedGetOrReportT_quiet _ _ _ _) fun ty => .hasErrors fun b => ?_
    exact quiet_ite .ret (.logline (.logline (.get fun items => itemLoop_quiet _ items)))
  | add =>
    refine quiet_bind (namedGetOrReportT_quiet _ _ _ _) fun a => quiet_bind (namedGetOrReportT_quiet _ _ _ _) fun ty => ?_
    cases a with
    | none => exact .ret
    | some x =>
      cases ty with
      | none => exact .ret
      | some k => exact .get fun _ => .set .ret
  | args => exact .named fun l => printArgs_quiet l
  | floats => exact .named fun l => printFloats_quiet l
  | save =>
    refine quiet_bind (namedGetOrReportT_quiet _ _ _ _) fun a => quiet_bind (namedGetOrReportT_quiet _ _ _ _) fun d => ?_
    cases a with
    | none => exact .ret
    | some x =>
      cases d with
      | none => exact .ret
      | some k => exact .logline .ret
  | both =>
    refine quiet_bind (namedGetOrReport_quiet _ _) fun r => ?_
    cases r with
    | none => exact .ret
    | some v =>
      refine showAny_quiet (quiet_bind (namedGetOrReport_quiet _ _) fun r => ?_)
      cases r with
      | none => exact .ret
      | some o => exact showAny_quiet .ret

/-! ## The program -/

/-- The command of a function. -/
def NamedCode.name : NamedCode → Bytes
  | .list => lit "inventory.list"
  | .add => lit "inventory.add"
  | .args => lit "print_args"
  | .floats => lit "print_floats"
  | .save => lit "save_game"
  | .both => lit "required_and_optional"

theorem named_list : Table.functions namedTable (lit "inventory.list") = some [(.list, ())] := by decide +kernel
theorem named_add : Table.functions namedTable (lit "inventory.add") = some [(.add, ())] := by decide +kernel
theorem named_args : Table.functions namedTable (lit "print_args") = some [(.args, ())] := by decide +kernel
theorem named_floats : Table.functions namedTable (lit "print_floats") = some [(.floats, ())] := by decide +kernel
theorem named_save : Table.functions namedTable (lit "save_game") = some [(.save, ())] := by decide +kernel
theorem named_both : Table.functions namedTable (lit "required_and_optional") = some [(.both, ())] := by decide +kernel

theorem named_member {i : Input} {fs : List (NamedCode × Unit)} {f : NamedCode × Unit} (hfs : Table.functions namedTable i.name = some fs)
    (hf : f ∈ fs) : i.name = f.1.name := by
  have hm := functions_mem hfs
  simp only [namedTable, List.mem_cons, List.not_mem_nil, or_false, Prod.mk.injEq] at hm
  rcases hm with ⟨h1, rfl⟩ | ⟨h1, rfl⟩ | ⟨h1, rfl⟩ | ⟨h1, rfl⟩ | ⟨h1, rfl⟩ | ⟨h1, rfl⟩ <;>
    simp only [List.mem_cons, List.not_mem_nil, or_false] at hf <;> subst hf <;> exact h1

/-- The context in which bodies are looked at. -/
abbrev idleNested (W C D : Type) : Nested Unit W C D := ⟨fun _ _ => .diverge, fun _ _ => .diverge⟩

theorem outcome_none {ev : List CtxEvent} : outcomeOf (R := Unit) none ev (.ret ()) = ⟨errorsOf ev, none, outputOf ev, none⟩ := by simp [outcomeOf]

/-- What a function does is told. -/
theorem named_does (hl : pl.long64 = true) {c : NamedCode} {args : List Value} {named : List Named} {xs : Args (namedFunctions pl tiny c).params}
    {h : List (Item Bytes)} (hx : ConvertTo (namedFunctions pl tiny c).params args xs) (ht : ¬ NamedTrouble pl ⟨c.name, args, named⟩) :
    ∃ es e h', Says () named [] ((namedFunctions pl tiny c).body xs) h es e h' ∧
      NamedAccount pl tiny h ⟨c.name, args, named⟩ h' (outcomeOf (namedFunctions pl tiny c).print es e) := by
  cases c with
  | list =>
    match args, hx with
    | [], _ =>
      obtain ⟨ev, g1, g2⟩ := list_runs (ops := idleOps NamedCode Unit) (ne := idleNested _ _ _) (f := ⟨0, .list, ()⟩) (s := idleSys h) (tiny := tiny) pl named
      refine ⟨ev, .ret (), h, runs_says g1 (named_quiet (pl := pl) (tiny := tiny) .list ()), ?_⟩
      show NamedAccount pl tiny h _ h (outcomeOf (R := Unit) none ev (.ret ()))
      rw [outcome_none]
      exact g2
  | add =>
    match args, hx with
    | [a, b], hx =>
      obtain ⟨z, t, ⟨⟩⟩ := xs
      obtain ⟨i, rfl, h1⟩ := (size_reads (.inr ⟨rfl, hl⟩)).1 hx.1
      obtain rfl := string_reads.1 hx.2.1
      obtain ⟨ev, s', g1, g2⟩ := add_runs (ops := idleOps NamedCode Unit) (ne := idleNested _ _ _) (f := ⟨0, .add, ()⟩) (s := idleSys h) (tiny := tiny) pl
        named t z
      refine ⟨ev, .ret (), s'.user, runs_says g1 (named_quiet (pl := pl) (tiny := tiny) .add (z, t, ())), ?_⟩
      show NamedAccount pl tiny h _ _ (outcomeOf (R := Unit) none ev (.ret ()))
      rw [outcome_none]
      exact g2 i h1
  | args =>
    match args, hx with
    | [], _ =>
      obtain ⟨ev, g1, g2⟩ := args_runs (ops := idleOps NamedCode Unit) (ne := idleNested _ _ _) (f := ⟨0, .args, ()⟩) (s := idleSys h) (pl := pl)
        (tiny := tiny) named
      refine ⟨ev, .ret (), h, runs_says g1 (named_quiet (pl := pl) (tiny := tiny) .args ()), ?_⟩
      show NamedAccount pl tiny h _ h (outcomeOf (R := Unit) none ev (.ret ()))
      rw [outcome_none]
      exact g2
  | floats =>
    match args, hx with
    | [], _ =>
      obtain ⟨ev, g1, g2⟩ := floats_runs (ops := idleOps NamedCode Unit) (ne := idleNested _ _ _) (f := ⟨0, .floats, ()⟩) (s := idleSys h) (pl := pl)
        (tiny := tiny) named
      refine ⟨ev, .ret (), h, runs_says g1 (named_quiet (pl := pl) (tiny := tiny) .floats ()), ?_⟩
      show NamedAccount pl tiny h _ h (outcomeOf (R := Unit) none ev (.ret ()))
      rw [outcome_none]
      exact g2
  | save =>
    match args, hx with
    | [], _ =>
      obtain ⟨ev, g1, g2⟩ := save_runs (ops := idleOps NamedCode Unit) (ne := idleNested _ _ _) (f := ⟨0, .save, ()⟩) (s := idleSys h) (tiny := tiny) pl named
      refine ⟨ev, .ret (), h, runs_says g1 (named_quiet (pl := pl) (tiny := tiny) .save ()), ?_⟩
      show NamedAccount pl tiny h _ h (outcomeOf (R := Unit) none ev (.ret ()))
      rw [outcome_none]
      exact g2
  | both =>
    match args, hx with
    | [], _ =>
      obtain ⟨ev, g1, g2⟩ := both_runs (ops := idleOps NamedCode Unit) (ne := idleNested _ _ _) (f := ⟨0, .both, ()⟩) (s := idleSys h) (tiny := tiny) pl named ht
      refine ⟨ev, .ret (), h, runs_says g1 (named_quiet (pl := pl) (tiny := tiny) .both ()), ?_⟩
      show NamedAccount pl tiny h _ h (outcomeOf (R := Unit) none ev (.ret ()))
      rw [outcome_none]
      exact g2

/-- Showing a value only comes to an end if it can be read as a truth value or not, and then goes on. -/
theorem says_showAny {W C D : Type} {x : D} {l : List Named} {past : List CtxEvent} {label : Bytes} {v : Value} {k : Prog W C D Unit} {w w' : W}
    {es : List CtxEvent} {e : End Unit} (h : Says x l past (showAny pl label v k) w es e w') :
    (∃ r, (boolConv pl).fromString v = .ok r) ∧
      ∃ ev es', (∀ e ∈ ev, ∀ i v, e ≠ CtxEvent.setNamed i v) ∧ Says x l (past ++ ev) k w es' e w' := by
  unfold showAny at h
  cases hb : (boolConv pl).fromString v with
  | ub => rw [hb] at h; cases h
  | diverge => rw [hb] at h; cases h
  | ok r =>
    refine ⟨⟨r, rfl⟩, ?_⟩
    rw [hb] at h
    cases r with
    | ok b =>
      cases h with
      | logline h => exact ⟨[_], _, by simp, h⟩
    | error m =>
      obtain ⟨r, hi⟩ := int_converts (pl := pl) (t := .int) v
      simp only [Prog.ofRes, Prog.bind] at h
      rw [hi] at h
      cases r with
      | ok z =>
        cases h with
        | logline h => exact ⟨[_], _, by simp, h⟩
      | error m' =>
        cases h with
        | reportError h =>
          cases h with
          | reportError h => exact ⟨[.error m, .error m'], _, by simp, by simpa using h⟩

/-- Asking for a named argument that is there. -/
theorem says_there {W C D R : Type} {x : D} {l : List Named} {past : List CtxEvent} {key : Bytes} {required : Bool} {v : Value}
    {k : Option Value → Prog W C D R} {w w' : W} {es : List CtxEvent} {e : End R} (hf : FirstNamed key (namedAfter l past) v)
    (h : Says x l past ((namedGetOrReport key required).bind k) w es e w') : Says x l past (k (some v)) w es e w' := by
  simp only [namedGetOrReport, namedGet, Prog.bind] at h
  cases h with
  | named h =>
    dsimp only at h
    rw [namedFind_first hf] at h
    exact h

theorem named_calm {c : NamedCode} {args : List Value} {named : List Named} {xs : Args (namedFunctions pl tiny c).params}
    {es : List CtxEvent} {e : End (namedFunctions pl tiny c).R} {h h' : List (Item Bytes)}
    (hs : Says () named [] ((namedFunctions pl tiny c).body xs) h es e h') : ¬ NamedTrouble pl ⟨c.name, args, named⟩ := by
  rintro ⟨h1, h2, h3, v, h4, h5⟩
  dsimp only at h2 h3 h4 h5
  have hc : c = .both := by
    cases c with
    | both => rfl
    | _ => exact absurd h2 (by decide +kernel)
  subst hc
  have hs := says_there (l := named) (past := []) h4 hs
  obtain ⟨hb, ev, es', hev, hs⟩ := says_showAny hs
  have hn : namedAfter named ([] ++ ev) = named := namedAfter_plain hev
  rcases h5 with ⟨t, rfl, h5⟩ | ⟨t, h6, h5⟩
  · exact (bool_converts ⟨[t]⟩).1 hb ⟨h1, t, rfl, h5⟩
  · have hs := says_there (by rw [hn]; exact h6) hs
    exact (bool_converts ⟨[t]⟩).1 (says_showAny hs).1 ⟨h1, t, rfl, h5⟩

theorem add_converts (hl : pl.long64 = true) {i t : Bytes} {z : Int} (hz : IndexText i z) :
    conversionErrors [⟨Int, intConv pl .ulong⟩, ⟨Bytes, stringConv⟩] [⟨[i]⟩, ⟨[t]⟩] = [] := by
  have h : ConvertTo [⟨Int, intConv pl .ulong⟩, ⟨Bytes, stringConv⟩] [⟨[i]⟩, ⟨[t]⟩] (z, t, ()) :=
    ⟨(size_reads (.inr ⟨rfl, hl⟩)).2 ⟨_, rfl, hz⟩, rfl, trivial⟩
  exact (convertTo_defined h).2

theorem named_accounts (hl : pl.long64 = true) : Accounts (namedFunctions pl tiny) namedTable (NamedAccount pl tiny) (fun w h => w = h) where
  known := by
    intro h h' i o t
    cases t with
    | list | noList => exact ⟨by dsimp only; decide +kernel, _, _, named_list, firstTaking_single rfl, rfl⟩
    | add hz | noAdd hz =>
      refine ⟨by dsimp only; decide +kernel, _, _, named_add, firstTaking_single rfl, ?_⟩
      exact add_converts hl hz
    | args => exact ⟨by dsimp only; decide +kernel, _, _, named_args, firstTaking_single rfl, rfl⟩
    | floats => exact ⟨by dsimp only; decide +kernel, _, _, named_floats, firstTaking_single rfl, rfl⟩
    | save | noSave => exact ⟨by dsimp only; decide +kernel, _, _, named_save, firstTaking_single rfl, rfl⟩
    | missing | both => exact ⟨by dsimp only; decide +kernel, _, _, named_both, firstTaking_single rfl, rfl⟩
  does := by
    rintro w w' _ ⟨nm, args, named⟩ fs ⟨c, ⟨⟩⟩ xs es e rfl hfs hf hx hs
    have hm := named_member hfs (firstTaking_member hf)
    dsimp only at hm
    subst hm
    obtain ⟨es', e', h', g1, g2⟩ := named_does hl (named := named) hx (named_calm hs)
    obtain ⟨rfl, rfl, rfl⟩ := says_unique g1 hs
    exact ⟨w', rfl, g2⟩

theorem named_steady : Steady (namedFunctions pl tiny) namedTable (fun _ => True) where
  same := by
    rintro _ ⟨c, ⟨⟩⟩ xs l w v es e w' _ _ _ _ hs
    cases c with
    | list =>
      obtain ⟨ev, g1, _⟩ := list_runs (ops := idleOps NamedCode Unit) (ne := idleNested _ _ _) (f := ⟨0, .list, ()⟩) (s := idleSys v) (tiny := tiny) pl l
      exact ⟨ev, .ret (), v, runs_says g1 (named_quiet (pl := pl) (tiny := tiny) .list ())⟩
    | add =>
      obtain ⟨z, t, ⟨⟩⟩ := xs
      obtain ⟨ev, s', g1, _⟩ := add_runs (ops := idleOps NamedCode Unit) (ne := idleNested _ _ _) (f := ⟨0, .add, ()⟩) (s := idleSys v) (tiny := tiny) pl
        l t z
      exact ⟨ev, .ret (), _, runs_says g1 (named_quiet (pl := pl) (tiny := tiny) .add (z, t, ()))⟩
    | args =>
      obtain ⟨ev, g1, _⟩ := args_runs (ops := idleOps NamedCode Unit) (ne := idleNested _ _ _) (f := ⟨0, .args, ()⟩) (s := idleSys v) (pl := pl)
        (tiny := tiny) l
      exact ⟨ev, .ret (), v, runs_says g1 (named_quiet (pl := pl) (tiny := tiny) .args ())⟩
    | floats =>
      obtain ⟨ev, g1, _⟩ := floats_runs (ops := idleOps NamedCode Unit) (ne := idleNested _ _ _) (f := ⟨0, .floats, ()⟩) (s := idleSys v) (pl := pl)
        (tiny := tiny) l
      exact ⟨ev, .ret (), v, runs_says g1 (named_quiet (pl := pl) (tiny := tiny) .floats ())⟩
    | save =>
      obtain ⟨ev, g1, _⟩ := save_runs (ops := idleOps NamedCode Unit) (ne := idleNested _ _ _) (f := ⟨0, .save, ()⟩) (s := idleSys v) (tiny := tiny) pl l
      exact ⟨ev, .ret (), v, runs_says g1 (named_quiet (pl := pl) (tiny := tiny) .save ())⟩
    | both =>
      obtain ⟨ev, g1, _⟩ := both_runs (ops := idleOps NamedCode Unit) (ne := idleNested _ _ _) (f := ⟨0, .both, ()⟩) (s := idleSys v) (tiny := tiny) pl l
        (named_calm hs)
      exact ⟨ev, .ret (), v, runs_says g1 (named_quiet (pl := pl) (tiny := tiny) .both ())⟩
  stays := by intros; trivial

theorem named_answerable (hl : pl.long64 = true) (i : Input) :
    Answerable (namedFunctions pl tiny) namedTable (fun _ => True) i ↔ ¬ NamedTrouble pl i := by
  constructor
  · intro ha ht
    have ht' := ht
    obtain ⟨_, h1, h2, _⟩ := ht'
    obtain ⟨nm, args, named⟩ := i
    dsimp only at h1 h2
    subst h1 h2
    obtain ⟨_, h4⟩ := ha _ (.both, ()) (by dsimp only; decide +kernel) named_both (firstTaking_single rfl)
    obtain ⟨es, e, w, hs⟩ := h4 () trivial [] trivial
    exact named_calm (c := .both) hs ht
  · rintro hn fs ⟨c, ⟨⟩⟩ _ hfs hf
    have hlen := firstTaking_length hf
    have hm := named_member hfs (firstTaking_member hf)
    obtain ⟨nm, args, named⟩ := i
    dsimp only at hlen hm ⊢
    subst hm
    refine ⟨?_, ?_⟩
    · cases c with
      | add =>
        match args, hlen with
        | [a, b], _ => exact ⟨int_converts a, string_converts b, trivial⟩
      | _ =>
        match args, hlen with
        | [], _ => exact trivial
    · rintro xs hx w _
      obtain ⟨es, e, h', g, _⟩ := named_does hl (named := named) hx hn
      exact ⟨es, e, h', g⟩

/-- A named argument that is asked for gives one thing. -/
theorem asked_unique {T : Type} {conv : Conv T} {key : Bytes} {required : Bool} {dflt : Option T} {l : List Named} {es es' : List Bytes} {x x' : Option T}
    (h : Asked conv key required dflt l es x) (h' : Asked conv key required dflt l es' x') : es = es' ∧ x = x' := by
  have no : ∀ {v}, NotNamed key l → FirstNamed key l v → False := by
    intro v h1 h2
    have := (namedFind_none.2 h1).symm.trans (namedFind_first h2)
    cases this
  have one : ∀ {v v'}, FirstNamed key l v → FirstNamed key l v' → v = v' := by
    intro v v' h1 h2
    have := (namedFind_first h1).symm.trans (namedFind_first h2)
    cases this
    rfl
  cases h with
  | absent h1 h2 =>
    cases h' with
    | absent => exact ⟨rfl, rfl⟩
    | missing _ h3 => rw [h2] at h3; cases h3
    | good h3 | bad h3 => exact (no h1 h3).elim
  | missing h1 h2 =>
    cases h' with
    | absent _ h3 => rw [h2] at h3; cases h3
    | missing => exact ⟨rfl, rfl⟩
    | good h3 | bad h3 => exact (no h1 h3).elim
  | good h1 h2 =>
    cases h' with
    | absent h3 | missing h3 => exact (no h3 h1).elim
    | good h3 h4 =>
      cases one h1 h3
      have := h2.symm.trans h4
      cases this
      exact ⟨rfl, rfl⟩
    | bad h3 h4 =>
      cases one h1 h3
      have := h2.symm.trans h4
      cases this
  | bad h1 h2 =>
    cases h' with
    | absent h3 | missing h3 => exact (no h3 h1).elim
    | good h3 h4 =>
      cases one h1 h3
      have := h2.symm.trans h4
      cases this
    | bad h3 h4 =>
      cases one h1 h3
      have := h2.symm.trans h4
      cases this
      exact ⟨rfl, rfl⟩

/-- The last of several requests. -/
theorem annals_last {H : Type} {told : Account H} {catching : Bool} {d : Delims} {i : Input} {h' : H} : ∀ {reqs : List Request} {outs : List ExecOut} {h : H},
    Annals told catching d h (reqs ++ [.input i]) outs h' →
    ∃ h1 outs1 out, Annals told catching d h reqs outs1 h1 ∧ outs = outs1 ++ [out] ∧ Result told catching h1 i h' out
  | [], _, _, ha => by
    cases ha with
    | input hr ha =>
      cases ha
      exact ⟨_, [], _, .nil, rfl, hr⟩
  | r :: reqs, _, _, ha => by
    cases ha with
    | wrong hm ha =>
      obtain ⟨h1, o1, out, g1, rfl, g2⟩ := annals_last ha
      exact ⟨h1, _ :: o1, out, .wrong hm g1, rfl, g2⟩
    | line hi hr ha =>
      obtain ⟨h1, o1, out, g1, rfl, g2⟩ := annals_last ha
      exact ⟨h1, _ :: o1, out, .line hi hr g1, rfl, g2⟩
    | input hr ha =>
      obtain ⟨h1, o1, out, g1, rfl, g2⟩ := annals_last ha
      exact ⟨h1, _ :: o1, out, .input hr g1, rfl, g2⟩

theorem chosen_mem {A : Type} {p : A → Prop} {l r : List A} (h : Chosen p l r) {a : A} (ha : a ∈ l) (hp : p a) : a ∈ r := by
  induction h with
  | nil => exact ha
  | take _ _ ih =>
    cases ha with
    | head => exact .head _
    | tail _ ha => exact .tail _ (ih ha)
  | skip hn _ ih =>
    cases ha with
    | head => exact absurd hp hn
    | tail _ ha => exact ih ha

theorem lines_mem {A : Type} {p : A → Bytes → Prop} {l : List A} {ts : List Bytes} (h : Forall2 p l ts) {a : A} (ha : a ∈ l) :
    ∃ t pre post, p a t ∧ ts.flatten = pre ++ t ++ post := by
  induction h with
  | nil => cases ha
  | @cons b t l ts hb _ ih =>
    cases ha with
    | head => exact ⟨t, [], ts.flatten, hb, by simp⟩
    | tail _ ha =>
      obtain ⟨t', pre, post, h1, h2⟩ := ih ha
      exact ⟨t', t ++ pre, post, h1, by rw [List.flatten_cons, h2]; simp⟩

end Coil
