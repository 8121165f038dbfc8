import Verif.Spec.ErrorProgram
import Verif.Proofs.Account
import Verif.Proofs.BasicExample
import Verif.Props.ErrorCommands

/-!
# The program of examples/errors: lemmas
-/

namespace Coil
open Spec Fl Floats

/-- What a quiet body does in the program it also says. -/
theorem runs_says {S W C D R : Type} {ops : RegOps S C D} {ne : Nested S W C D} {self : Inst C D} {l : List Named} {past : List CtxEvent}
    {p : Prog W C D R} {s s' : Sys S W C D} {es : List CtxEvent} {e : End R} (h : Runs ops ne self l past p s es e s') :
    Quiet p → Says self.data l past p s.user es e s'.user := by
  induction h with
  | ret => exact fun _ => .ret
  | throw => exact fun _ => .throw
  | log _ ih => intro hq; cases hq with | log hq => exact .log (ih hq)
  | logline _ ih => intro hq; cases hq with | logline hq => exact .logline (ih hq)
  | reportError _ ih => intro hq; cases hq with | reportError hq => exact .reportError (ih hq)
  | hasErrors _ ih => intro hq; cases hq with | hasErrors hq => exact .hasErrors (ih (hq _))
  | named _ ih => intro hq; cases hq with | named hq => exact .named (ih (hq _))
  | setNamed hi _ ih => intro hq; cases hq with | setNamed hq => exact .setNamed hi (ih hq)
  | get _ ih => intro hq; cases hq with | get hq => exact .get (ih (hq _))
  | set _ ih => intro hq; cases hq with | set hq => exact .set (ih hq)
  | captured _ _ ih => intro hq; cases hq with | captured hq => exact .captured (ih (hq _))
  | add => intro hq; cases hq
  | remove => intro hq; cases hq
  | clear => intro hq; cases hq
  | execLine => intro hq; cases hq
  | execInput => intro hq; cases hq

/-- A program for which there is nothing. -/
def idleOps (C D : Type) : RegOps Unit C D := ⟨fun _ _ => .diverge, fun _ _ _ => .diverge, fun _ _ => .diverge, fun _ => (), fun _ => []⟩

def idleSys {W C D : Type} (w : W) : Sys Unit W C D := ⟨(), none, w, [], 0, [], []⟩

theorem quiet_bind {W C D R Q : Type} {p : Prog W C D R} {k : R → Prog W C D Q} (hp : Quiet p) (hk : ∀ r, Quiet (k r)) : Quiet (p.bind k) := by
  induction hp with
  | ret => exact hk _
  | throw => exact .throw
  | ub => exact .ub
  | diverge => exact .diverge
  | log _ ih => exact .log ih
  | logline _ ih => exact .logline ih
  | reportError _ ih => exact .reportError ih
  | hasErrors _ ih => exact .hasErrors ih
  | named _ ih => exact .named ih
  | setNamed _ ih => exact .setNamed ih
  | get _ ih => exact .get ih
  | set _ ih => exact .set ih
  | captured _ ih => exact .captured ih

variable {pl : Platform} {tiny : Nat → Nat → Bool} {nan : Fl → Bool}

/-- Why a value is not read. -/
theorem float_error {v : Value} {m : Bytes} : (singleConv tiny).fromString v = .ok (.error m) ↔ FloatError tiny v m := by
  have same : ∀ {v : Value} {m m' : Bytes}, BadFloat v m' → (singleConv tiny).fromString v = .ok (.error m) → FloatError tiny v m := by
    intro v m m' hb h
    obtain rfl : m' = m := by
      have := (bad_float (tiny := tiny) hb).symm.trans h
      simpa using this
    exact .bad hb
  constructor
  · intro h
    by_cases hv : v.subvalues.length = 1
    swap
    · exact same (.parts hv) h
    obtain ⟨l⟩ := v
    match l, hv with
    | [s], _ =>
      by_cases hs : ∃ neg d, FloatText s neg d
      swap
      · exact same (.text hs) h
      obtain ⟨neg, d, hd⟩ := hs
      cases d with
      | infinity =>
        have := h.symm.trans ((C68_special (lit "float")).1 hd)
        simp at this
      | notANumber =>
        have := h.symm.trans ((C68_special (lit "float")).2 hd)
        simp at this
      | number q =>
        obtain ⟨n, e, hN⟩ := nearest_exists proper_single (number_nonneg hd)
        by_cases he : Fmt.single.emax < e
        · exact same (.large hd hN he) h
        · have no : ¬ ∃ x, ReadsFloat tiny s x := by
            rintro ⟨x, hx⟩
            have := h.symm.trans hx
            simp at this
          by_cases hq : leastNormal .single ≤ q ∨ q = mag n e
          · exact absurd ⟨_, C68_accept proper_single (lit "float") hd hN (by omega) hq⟩ no
          · have hm : m = cannotConvert s (lit "float") := by
              by_cases hr : s = [] ∨ ((Fl.lib .single tiny).strtox (cstr s)).errno = true ∨ ((Fl.lib .single tiny).strtox (cstr s)).stop ≠ s.length
              · have := h.symm.trans (C19_float_reject float_nulFree (Fl.lib .single tiny) hr)
                rw [cstr_of_nulFree (floatText_nulFree hd)] at this
                simpa using this
              · push Not at hr
                obtain ⟨h0, h1, h2⟩ := hr
                exact absurd ⟨_, (C19_float_iff (lit "float") (Fl.lib .single tiny) s _).2 ⟨h0, Bool.eq_false_iff.2 h1, h2, rfl⟩⟩ no
            push Not at hq
            exact hm ▸ .small hd hN hq.1 hq.2 no
  · intro h
    cases h with
    | bad h => exact bad_float h
    | @small s neg q n e hd hN h1 h2 no =>
      obtain ⟨r, hr⟩ := single_defined (tiny := tiny) ⟨[s]⟩
      cases r with
      | ok x => exact absurd ⟨x, hr⟩ no
      | error m =>
        rw [hr]
        by_cases hr' : s = [] ∨ ((Fl.lib .single tiny).strtox (cstr s)).errno = true ∨ ((Fl.lib .single tiny).strtox (cstr s)).stop ≠ s.length
        · have := hr.symm.trans (C19_float_reject float_nulFree (Fl.lib .single tiny) hr')
          rw [cstr_of_nulFree (floatText_nulFree hd)] at this
          exact this
        · push Not at hr'
          obtain ⟨h0, h1, h2⟩ := hr'
          exact absurd ⟨_, (C19_float_iff (lit "float") (Fl.lib .single tiny) s _).2 ⟨h0, Bool.eq_false_iff.2 h1, h2, rfl⟩⟩ no

theorem float_read {v : Value} {x : Fl} (h : (singleConv tiny).fromString v = .ok (.ok x)) : ∃ t, v = ⟨[t]⟩ ∧ ReadsFloat tiny t x := by
  by_cases hv : v.subvalues.length = 1
  · obtain ⟨l⟩ := v
    match l, hv with
    | [t], _ => exact ⟨t, rfl, h⟩
  · have := (bad_float (tiny := tiny) (.parts hv)).symm.trans h
    simp at this

theorem err_context : Table.functions errorTable (lit "sqrt_context") = some [(.context, ())] := by decide +kernel
theorem err_except : Table.functions errorTable (lit "sqrt_except") = some [(.except, ())] := by decide +kernel
theorem err_float : Table.functions errorTable (lit "get_float") = some [(.float, ())] := by decide +kernel
theorem err_type : Table.functions errorTable (lit "get_type_name") = some [(.type, ())] := by decide +kernel
theorem err_named : Table.functions errorTable (lit "test_named_args") = some [(.named, ())] := by decide +kernel

theorem quiet_ite {W C D R : Type} {c : Prop} [Decidable c] {a b : Prog W C D R} (ha : Quiet a) (hb : Quiet b) : Quiet (if c then a else b) := by
  split
  · exact ha
  · exact hb

theorem namedGet_quiet {W C D : Type} (key : Bytes) : Quiet (namedGet key : Prog W C D _) := by
  refine .named fun l => ?_
  cases namedFind key l with
  | none => exact .ret
  | some nv => exact .ret

theorem namedGetOrReport_quiet {W C D : Type} (key : Bytes) (required : Bool) : Quiet (namedGetOrReport key required : Prog W C D _) := by
  refine quiet_bind (namedGet_quiet key) fun r => ?_
  cases r with
  | ok v => exact .ret
  | error e => exact quiet_ite (.reportError .ret) .ret

theorem namedGetOrReportT_quiet {W C D T : Type} (conv : Conv T) (key : Bytes) (required : Bool) (dflt : Option T) :
    Quiet (namedGetOrReportT conv key required dflt : Prog W C D _) := by
  refine quiet_bind (quiet_bind (namedGet_quiet key) fun r => ?_) fun r => ?_
  · cases r with
    | error e => exact .ret
    | ok v =>
      refine quiet_bind (ofRes_quiet _) fun r => ?_
      cases r <;> exact .ret
  · cases r with
    | ok x => exact .ret
    | error e =>
      cases e with
      | missingKey m => exact quiet_ite (.reportError .ret) .ret
      | typeMismatch m => exact .reportError .ret

theorem testNamed_quiet {W C D : Type} : Quiet ((testNamedArgsDef (W := W) (C := C) (D := D) pl tiny).body ()) := by
  refine quiet_bind (namedGetOrReport_quiet _ _) fun r => ?_
  cases r with
  | none => exact .ret
  | some v =>
    refine quiet_bind (namedGetOrReportT_quiet _ _ _ _) fun r => ?_
    cases r with
    | none => exact .ret
    | some x =>
      refine quiet_bind (namedGetOrReportT_quiet _ _ _ _) fun r => .hasErrors fun b => quiet_ite .ret (.log ?_)
      cases r with
      | none => exact .ret
      | some z => exact .log .ret

theorem error_quiet : AllQuiet (errorFunctions pl tiny nan) := by
  intro c xs
  cases c with
  | context => exact quiet_ite (.reportError .ret) .ret
  | except => exact quiet_ite .throw .ret
  | float =>
    refine quiet_bind (ofRes_quiet _) fun r => ?_
    cases r
    · exact .reportError .ret
    · exact .ret
  | type =>
    refine quiet_bind (ofRes_quiet _) fun r => ?_
    cases r
    swap
    · exact .ret
    refine quiet_bind (ofRes_quiet _) fun r => ?_
    cases r
    swap
    · exact .ret
    refine quiet_bind (ofRes_quiet _) fun r => ?_
    cases r
    swap
    · exact .ret
    exact .reportError (.reportError (.reportError (.reportError .ret)))
  | named => exact testNamed_quiet

/-! ## What the functions do -/

theorem root_says (f : ErrorCode) (hf : f = .context ∨ f = .except) {t : Bytes} {x : Fl} (hx : ReadsFloat tiny t x) (named : List Named) :
    ∃ es e, Says (W := Unit) (C := ErrorCode) (D := Unit) () named []
        (if Fl.isNegative x then if f = .context then .reportError (lit "Value should be non-negative!") (.ret zeroF)
          else .throw (.std (lit "Value should be non-negative!")) else .ret (Fl.sqrt .single nan x)) () es e () ∧
      ErrorTold pl tiny nan () ⟨if f = .context then lit "sqrt_context" else lit "sqrt_except", [⟨[t]⟩], named⟩ ()
        (outcomeOf (some (singleConv tiny).toString) es e) := by
  cases hn : Fl.isNegative x with
  | false => exact ⟨[], .ret _, .ret, by rcases hf with rfl | rfl; exact .root (.inl rfl) hx hn; exact .root (.inr rfl) hx hn⟩
  | true =>
    rcases hf with rfl | rfl
    · exact ⟨[.error _], .ret _, .reportError .ret, .reported hx hn⟩
    · exact ⟨[], .exn _, .throw, .thrown hx hn⟩

theorem bool_nulFree : NulFree (lit "bool") := by unfold NulFree; decide

theorem bool_error {s m : Bytes} (h : (boolConv pl).fromString ⟨[s]⟩ = .ok (.error m)) : m = cannotConvert (cstr s) (lit "bool") := by
  have hg : genericError (lit "bool") (⟨[s]⟩ : Value) [] = cannotConvert (cstr s) (lit "bool") := by
    rw [genericError_nil, cstr_of_nulFree bool_nulFree]
    simp [joined]
  simp only [boolConv] at h
  split at h
  · cases h
  split at h
  · cases h
  rcases equal_outcome (pl := pl) s (lit "true") with ⟨r, h1⟩ | h1
  · rw [h1] at h
    cases r with
    | true => cases h
    | false =>
      rcases equal_outcome (pl := pl) s (lit "false") with ⟨r2, h2⟩ | h2
      · rw [h2] at h
        cases r2 with
        | true => cases h
        | false => rw [← hg]; cases h; rfl
      · rw [h2] at h
        cases h
  · rw [h1] at h
    cases h

theorem type_says (v : Value) (hv : ∃ r, (boolConv pl).fromString v = .ok r) (named : List Named) :
    ∃ es r, Says () named [] ((getTypeNameDef (W := Unit) (C := ErrorCode) (D := Unit) pl tiny).body (v, ())) () es (.ret r) () ∧
      TypeAnswer pl tiny v (outcomeOf (some stringConv.toString) es (.ret r)) := by
  simp only [getTypeNameDef]
  by_cases h1 : v.subvalues.length = 1
  swap
  · rw [C15_bool h1, C15_int h1, bad_float (tiny := tiny) (.parts h1)]
    exact ⟨[.error _, .error _, .error _, .error _], [], .reportError (.reportError (.reportError (.reportError .ret))), .parts h1⟩
  obtain ⟨l⟩ := v
  match l, h1 with
  | [s], _ =>
    obtain ⟨r, hr⟩ := hv
    rw [hr]
    cases r with
    | ok b =>
      obtain ⟨t, ht, hb⟩ := bool_reads.1 hr
      cases ht
      exact ⟨[], _, .ret, .bool ⟨b, hb⟩⟩
    | error m =>
      have nb : ¬ IsBool s := by
        rintro ⟨b, hb⟩
        have := hr.symm.trans (bool_reads.2 ⟨s, rfl, hb⟩)
        simp at this
      cases bool_error hr
      simp only [Prog.ofRes, Prog.bind]
      by_cases hi : IsInt pl s
      · obtain ⟨z, hz⟩ := hi
        rw [(C12_signed_iff (t := .int) (pl := pl) trivial).2 hz]
        exact ⟨[], _, .ret, .int nb ⟨z, hz⟩⟩
      · rw [C12_signed_reject (t := .int) (pl := pl) trivial hi]
        simp only []
        obtain ⟨r, hf⟩ := single_defined (tiny := tiny) ⟨[s]⟩
        rw [hf]
        cases r with
        | ok x => exact ⟨[], _, .ret, .float nb hi hf⟩
        | error m => exact ⟨[.error _, .error _, .error _, .error _], [], .reportError (.reportError (.reportError (.reportError .ret))),
            .unknown nb hi (float_error.1 hf)⟩

/-- What a function does is told. -/
theorem error_does {c : ErrorCode} {nm : Bytes} {args : List Value} {named : List Named} {xs : Args (errorFunctions pl tiny nan c).params}
    (hc : (nm, [(c, ())]) ∈ errorTable) (hx : ConvertTo (errorFunctions pl tiny nan c).params args xs) (ht : ¬ ErrorTrouble pl ⟨nm, args, named⟩) :
    ∃ es e, Says () named [] ((errorFunctions pl tiny nan c).body xs) () es e () ∧
      ErrorTold pl tiny nan () ⟨nm, args, named⟩ () (outcomeOf (errorFunctions pl tiny nan c).print es e) := by
  simp only [errorTable, List.mem_cons, List.not_mem_nil, or_false, Prod.mk.injEq, and_true] at hc
  rcases hc with ⟨rfl, hc⟩ | ⟨rfl, hc⟩ | ⟨rfl, hc⟩ | ⟨rfl, hc⟩ | ⟨rfl, hc⟩ <;> cases hc
  · match args, hx with
    | [a], hx =>
      obtain ⟨t, rfl, h⟩ := float_read hx.1
      exact root_says .context (.inl rfl) h named
  · match args, hx with
    | [a], hx =>
      obtain ⟨t, rfl, h⟩ := float_read hx.1
      exact root_says .except (.inr rfl) h named
  · match args, hx with
    | [a], hx =>
      have h1 : xs.1 = a := by
        have : (Except.ok a : Except Bytes Value) = .ok xs.1 := by simpa [valueConv] using hx.1
        cases this
        rfl
      show ∃ es e, Says _ _ _ ((Prog.ofRes ((singleConv tiny).fromString xs.1)).bind _) _ es e _ ∧ _
      rw [h1]
      obtain ⟨r, hf⟩ := single_defined (tiny := tiny) a
      rw [hf]
      cases r with
      | ok x =>
        obtain ⟨t, rfl, h⟩ := float_read hf
        exact ⟨[], .ret x, .ret, .float h⟩
      | error m => exact ⟨[.error m], .ret zeroF, .reportError .ret, .noFloat (float_error.1 hf)⟩
  · match args, hx with
    | [a], hx =>
      have h1 : xs.1 = a := by
        have : (Except.ok a : Except Bytes Value) = .ok xs.1 := by simpa [valueConv] using hx.1
        cases this
        rfl
      have hb : ∃ r, (boolConv pl).fromString a = .ok r := by
        refine (bool_converts a).2 fun ⟨h2, t, h3, h4⟩ => ht ⟨h2, rfl, t, ?_, h4⟩
        rw [h3]
      obtain ⟨es, r, g1, g2⟩ := type_says (tiny := tiny) a hb named
      refine ⟨es, .ret r, ?_, .type g2⟩
      obtain ⟨y, u⟩ := xs
      cases h1
      exact g1
  · match args, hx with
    | [], hx =>
      obtain ⟨ev, g1, g2⟩ := named_told (ops := idleOps ErrorCode Unit) (ne := ⟨fun _ _ => .diverge, fun _ _ => .diverge⟩) (self := ⟨0, .named, ()⟩)
        (pl := pl) (tiny := tiny) (σ := idleSys ()) named
      refine ⟨ev, .ret (), runs_says g1 testNamed_quiet, ?_⟩
      have : outcomeOf (R := Unit) none ev (.ret ()) = ⟨errorsOf ev, none, outputOf ev, none⟩ := by simp [outcomeOf]
      show ErrorTold pl tiny nan () _ () (outcomeOf (R := Unit) none ev (.ret ()))
      rw [this]
      exact .named g2

theorem error_member {i : Input} {fs : List (ErrorCode × Unit)} {f : ErrorCode × Unit} (hfs : Table.functions errorTable i.name = some fs)
    (hf : f ∈ fs) : (i.name, [(f.1, ())]) ∈ errorTable := by
  have hm := functions_mem hfs
  simp only [errorTable, List.mem_cons, List.not_mem_nil, or_false, Prod.mk.injEq] at hm ⊢
  rcases hm with ⟨h1, rfl⟩ | ⟨h1, rfl⟩ | ⟨h1, rfl⟩ | ⟨h1, rfl⟩ | ⟨h1, rfl⟩ <;> simp only [List.mem_cons, List.not_mem_nil, or_false] at hf <;>
    subst hf <;> simp [h1]

/-- Whether `get_type_name` comes to an end. -/
theorem type_ends {a : Value} {named : List Named} {es : List CtxEvent} {e : End Bytes}
    (h : Says () named [] ((getTypeNameDef (W := Unit) (C := ErrorCode) (D := Unit) pl tiny).body (a, ())) () es e ()) :
    ∃ r, (boolConv pl).fromString a = .ok r := by
  simp only [getTypeNameDef] at h
  cases hb : (boolConv pl).fromString a with
  | ok r => exact ⟨r, rfl⟩
  | ub => rw [hb] at h; cases h
  | diverge => rw [hb] at h; cases h

theorem error_calm {c : ErrorCode} {nm : Bytes} {args : List Value} {named : List Named} {xs : Args (errorFunctions pl tiny nan c).params}
    {es : List CtxEvent} {e : End (errorFunctions pl tiny nan c).R}
    (hc : (nm, [(c, ())]) ∈ errorTable) (hx : ConvertTo (errorFunctions pl tiny nan c).params args xs)
    (hs : Says () named [] ((errorFunctions pl tiny nan c).body xs) () es e ()) : ¬ ErrorTrouble pl ⟨nm, args, named⟩ := by
  rintro ⟨h1, h2, t, h3, h4⟩
  dsimp only at h2 h3
  subst h2 h3
  have : c = .type := by
    simp only [errorTable, List.mem_cons, List.not_mem_nil, or_false, Prod.mk.injEq, and_true] at hc
    rcases hc with ⟨h, hc⟩ | ⟨h, hc⟩ | ⟨h, hc⟩ | ⟨h, hc⟩ | ⟨h, hc⟩
    · exact absurd h (by decide +kernel)
    · exact absurd h (by decide +kernel)
    · exact absurd h (by decide +kernel)
    · cases hc; rfl
    · exact absurd h (by decide +kernel)
  subst this
  obtain ⟨y, u⟩ := xs
  have h5 : y = ⟨[t]⟩ := by
    have : (Except.ok ⟨[t]⟩ : Except Bytes Value) = .ok y := by simpa [valueConv] using hx.1
    cases this
    rfl
  subst h5
  exact (bool_converts ⟨[t]⟩).1 (type_ends hs) ⟨h1, t, rfl, h4⟩

theorem reads_errors {t : Bytes} {x : Fl} (h : ReadsFloat tiny t x) : conversionErrors [⟨Fl, singleConv tiny⟩] [⟨[t]⟩] = [] := by
  unfold ReadsFloat at h
  simp only [conversionErrors, h]

theorem error_accounts : Accounts (errorFunctions pl tiny nan) errorTable (ErrorTold pl tiny nan) (fun _ _ => True) where
  known := by
    intro h h' i o t
    cases t with
    | root hn hx _ =>
      have h1 := reads_errors hx
      rcases hn with rfl | rfl
      · exact ⟨by dsimp only; decide +kernel, _, _, err_context, firstTaking_single rfl, h1⟩
      · exact ⟨by dsimp only; decide +kernel, _, _, err_except, firstTaking_single rfl, h1⟩
    | reported hx _ =>
      have h1 := reads_errors hx
      exact ⟨by dsimp only; decide +kernel, _, _, err_context, firstTaking_single rfl, h1⟩
    | thrown hx _ =>
      have h1 := reads_errors hx
      exact ⟨by dsimp only; decide +kernel, _, _, err_except, firstTaking_single rfl, h1⟩
    | float | noFloat => exact ⟨by dsimp only; decide +kernel, _, _, err_float, firstTaking_single rfl, rfl⟩
    | type => exact ⟨by dsimp only; decide +kernel, _, _, err_type, firstTaking_single rfl, rfl⟩
    | named => exact ⟨by dsimp only; decide +kernel, _, _, err_named, firstTaking_single rfl, rfl⟩
  does := by
    rintro _ _ _ ⟨nm, args, named⟩ fs ⟨c, ⟨⟩⟩ xs es e _ hfs hf hx hs
    have hm := error_member hfs (firstTaking_member hf)
    obtain ⟨es', e', g1, g2⟩ := error_does (named := named) hm hx (error_calm hm hx hs)
    obtain ⟨rfl, rfl, _⟩ := says_unique g1 hs
    exact ⟨(), trivial, g2⟩

theorem error_steady : Steady (errorFunctions pl tiny nan) errorTable fun _ => True where
  same := fun _ _ _ _ h => ⟨_, _, _, h⟩
  stays := fun _ _ _ _ => trivial

theorem error_answerable (i : Input) : Answerable (errorFunctions pl tiny nan) errorTable (fun _ => True) i ↔ ¬ ErrorTrouble pl i := by
  constructor
  · intro h ht
    have ht' := ht
    obtain ⟨_, hn, t, ha, _⟩ := ht'
    obtain ⟨nm, args, named⟩ := i
    dsimp only at hn ha
    subst hn ha
    obtain ⟨_, h2⟩ := h _ (.type, ()) (by dsimp only; decide +kernel) err_type (firstTaking_single rfl)
    have hx : ConvertTo (errorFunctions pl tiny nan .type).params [⟨[t]⟩] (⟨[t]⟩, ()) := ⟨rfl, trivial⟩
    obtain ⟨es, e, w, hs⟩ := h2 _ hx () trivial
    exact error_calm (nm := lit "get_type_name") (by simp [errorTable]) hx hs ht
  · rintro hn fs ⟨c, ⟨⟩⟩ _ hfs hf
    have hlen := firstTaking_length hf
    have hmem := error_member hfs (firstTaking_member hf)
    obtain ⟨nm, args, named⟩ := i
    dsimp only at hlen hmem ⊢
    refine ⟨?_, fun xs hx w _ => ?_⟩
    · cases c with
      | context | except =>
        match args, hlen with
        | [a], _ => exact ⟨single_defined a, trivial⟩
      | float | type =>
        match args, hlen with
        | [a], _ => exact ⟨⟨_, rfl⟩, trivial⟩
      | named =>
        match args, hlen with
        | [], _ => exact trivial
    · obtain ⟨es, e, g, _⟩ := error_does (named := named) hmem hx hn
      exact ⟨es, e, (), g⟩

end Coil
