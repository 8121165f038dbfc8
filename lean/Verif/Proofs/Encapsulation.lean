import Verif.Spec.Encapsulation
import Verif.Proofs.Semantics

/-!
# The subsystem: from objects to stages
-/

namespace Coil
open Spec

variable {pl : Platform} {tiny : Nat → Nat → Bool} {catching : Bool}

@[local simp] private theorem e_c : (lit "create_subsystem" = []) = False := by decide +kernel
@[local simp] private theorem n_cd : (lit "create_subsystem" = lit "destroy_subsystem") = False := by decide +kernel
@[local simp] private theorem n_ct : (lit "create_subsystem" = lit "subsystem.time") = False := by decide +kernel
@[local simp] private theorem n_cn : (lit "create_subsystem" = lit "subsystem.counter") = False := by decide +kernel
@[local simp] private theorem n_ca : (lit "create_subsystem" = lit "subsystem.data") = False := by decide +kernel
@[local simp] private theorem n_cw : (lit "create_subsystem" = lit "subsystem.do_some_work") = False := by decide +kernel
@[local simp] private theorem e_d : (lit "destroy_subsystem" = []) = False := by decide +kernel
@[local simp] private theorem n_dc : (lit "destroy_subsystem" = lit "create_subsystem") = False := by decide +kernel
@[local simp] private theorem n_dt : (lit "destroy_subsystem" = lit "subsystem.time") = False := by decide +kernel
@[local simp] private theorem n_dn : (lit "destroy_subsystem" = lit "subsystem.counter") = False := by decide +kernel
@[local simp] private theorem n_da : (lit "destroy_subsystem" = lit "subsystem.data") = False := by decide +kernel
@[local simp] private theorem n_dw : (lit "destroy_subsystem" = lit "subsystem.do_some_work") = False := by decide +kernel
@[local simp] private theorem e_t : (lit "subsystem.time" = []) = False := by decide +kernel
@[local simp] private theorem n_tc : (lit "subsystem.time" = lit "create_subsystem") = False := by decide +kernel
@[local simp] private theorem n_td : (lit "subsystem.time" = lit "destroy_subsystem") = False := by decide +kernel
@[local simp] private theorem n_tn : (lit "subsystem.time" = lit "subsystem.counter") = False := by decide +kernel
@[local simp] private theorem n_ta : (lit "subsystem.time" = lit "subsystem.data") = False := by decide +kernel
@[local simp] private theorem n_tw : (lit "subsystem.time" = lit "subsystem.do_some_work") = False := by decide +kernel
@[local simp] private theorem e_n : (lit "subsystem.counter" = []) = False := by decide +kernel
@[local simp] private theorem n_nc : (lit "subsystem.counter" = lit "create_subsystem") = False := by decide +kernel
@[local simp] private theorem n_nd : (lit "subsystem.counter" = lit "destroy_subsystem") = False := by decide +kernel
@[local simp] private theorem n_nt : (lit "subsystem.counter" = lit "subsystem.time") = False := by decide +kernel
@[local simp] private theorem n_na : (lit "subsystem.counter" = lit "subsystem.data") = False := by decide +kernel
@[local simp] private theorem n_nw : (lit "subsystem.counter" = lit "subsystem.do_some_work") = False := by decide +kernel
@[local simp] private theorem e_a : (lit "subsystem.data" = []) = False := by decide +kernel
@[local simp] private theorem n_ac : (lit "subsystem.data" = lit "create_subsystem") = False := by decide +kernel
@[local simp] private theorem n_ad : (lit "subsystem.data" = lit "destroy_subsystem") = False := by decide +kernel
@[local simp] private theorem n_at : (lit "subsystem.data" = lit "subsystem.time") = False := by decide +kernel
@[local simp] private theorem n_an : (lit "subsystem.data" = lit "subsystem.counter") = False := by decide +kernel
@[local simp] private theorem n_aw : (lit "subsystem.data" = lit "subsystem.do_some_work") = False := by decide +kernel
@[local simp] private theorem e_w : (lit "subsystem.do_some_work" = []) = False := by decide +kernel
@[local simp] private theorem n_wc : (lit "subsystem.do_some_work" = lit "create_subsystem") = False := by decide +kernel
@[local simp] private theorem n_wd : (lit "subsystem.do_some_work" = lit "destroy_subsystem") = False := by decide +kernel
@[local simp] private theorem n_wt : (lit "subsystem.do_some_work" = lit "subsystem.time") = False := by decide +kernel
@[local simp] private theorem n_wn : (lit "subsystem.do_some_work" = lit "subsystem.counter") = False := by decide +kernel
@[local simp] private theorem n_wa : (lit "subsystem.do_some_work" = lit "subsystem.data") = False := by decide +kernel

/-- The scenes of the program. -/
abbrev SubScene := Scene SubWorld SubCode Nat

/-- The commands of the program: the two of `run`, and those of the subsystem `j` if they are registered; their function objects have
numbers from `b` on. -/
def subTable (b : Nat) (on : Bool) (j : Nat) (n : Bytes) : Option (List (Inst SubCode Nat)) :=
  if n = lit "create_subsystem" then some [⟨0, .create, 0⟩]
  else if n = lit "destroy_subsystem" then some [⟨1, .destroy, 0⟩]
  else if on = true then
    if n = lit "subsystem.time" then some [⟨b, .time, j⟩, ⟨b + 1, .setTime, j⟩]
    else if n = lit "subsystem.counter" then some [⟨b + 2, .counter, j⟩, ⟨b + 3, .setCounter, j⟩]
    else if n = lit "subsystem.data" then some [⟨b + 4, .data, j⟩, ⟨b + 5, .setData, j⟩]
    else if n = lit "subsystem.do_some_work" then some [⟨b + 6, .work, j⟩]
    else none
  else none

/-- The changes of the registry: whole registrations and removals of a subsystem. -/
inductive Chapters : List (RegEvent SubCode Nat) → Prop
  | start {f g} : Chapters [.added (lit "create_subsystem") f, .added (lit "destroy_subsystem") g]
  | adds {h f1 f2 f3 f4} : Chapters h → Chapters (h ++ [.added (lit "subsystem.time") f1, .added (lit "subsystem.counter") f2,
      .added (lit "subsystem.data") f3, .added (lit "subsystem.do_some_work") f4])
  | removes {h} : Chapters h → Chapters (h ++ [.removed (lit "subsystem.time"), .removed (lit "subsystem.counter"),
      .removed (lit "subsystem.data"), .removed (lit "subsystem.do_some_work")])

/-- The scene and the stage agree. -/
structure Staged (d : Delims) (σ : SubScene) (g : Stage) : Prop where
  commands : ∃ b, σ.commands = subTable b g.usable (σ.user.current.getD 0)
  fits : Fitting σ.user g
  usable : g.usable = true → ∃ p, g.part = some p
  reads : σ.reads = ReadsAs d
  changes : Chapters σ.changes

/-! ## Bodies -/

variable {self : Inst SubCode Nat} {l : List Named} {R : Type} {es : List CtxEvent} {e : End R} {σ σ' : SubScene}

theorem does_on {P : SubCode → FunctorDef SubWorld SubCode Nat} {past : List CtxEvent} {i : Nat} {o : Subsystem} {k : Subsystem → SubProg R} (ho : σ.user.at i = some o)
    (h : Does P catching self l past (k o) σ es e σ') : Does P catching self l past (onSubsystem i k) σ es e σ' := by
  refine .get ?_
  rw [ho]
  exact h

/-- The scene after all commands of a new subsystem have been registered. -/
def withNew (σ : SubScene) : SubScene :=
  { (((σ.add (lit "subsystem.time") [(.time, σ.user.objects.length), (.setTime, σ.user.objects.length)]).add
      (lit "subsystem.counter") [(.counter, σ.user.objects.length), (.setCounter, σ.user.objects.length)]).add
      (lit "subsystem.data") [(.data, σ.user.objects.length), (.setData, σ.user.objects.length)]).add
      (lit "subsystem.do_some_work") [(.work, σ.user.objects.length)] with
    user := { σ.user with objects := σ.user.objects ++ [some { Subsystem.made with names := subsystemNames }] } }

theorem does_new {P : SubCode → FunctorDef SubWorld SubCode Nat} {past : List CtxEvent} {k : Nat → SubProg R}
    (h : Does P catching self l past (k σ.user.objects.length) (withNew σ) es e σ') :
    Does P catching self l past (newSubsystem k) σ es e σ' := by
  refine .get (.set ?_)
  refine .add (does_on (o := Subsystem.made) (by simp [Scene.add, SubWorld.at]) (.get (.set ?_)))
  refine .add (does_on (o := { Subsystem.made with names := [lit "subsystem.time"] })
    (by simp [Scene.add, SubWorld.at, SubWorld.put, Subsystem.made]) (.get (.set ?_)))
  refine .add (does_on (o := { Subsystem.made with names := [lit "subsystem.time", lit "subsystem.counter"] })
    (by simp [Scene.add, SubWorld.at, SubWorld.put]) (.get (.set ?_)))
  refine .add (does_on (o := { Subsystem.made with names := [lit "subsystem.time", lit "subsystem.counter", lit "subsystem.data"] })
    (by simp [Scene.add, SubWorld.at, SubWorld.put]) (.get (.set ?_)))
  have : withNew σ = _ := rfl
  simp only [withNew] at h
  simpa [Scene.add, SubWorld.put, subsystemNames] using h

/-- The scene after all commands of a subsystem have been removed. -/
def without (σ : SubScene) : SubScene :=
  (((σ.remove (lit "subsystem.time")).remove (lit "subsystem.counter")).remove (lit "subsystem.data")).remove (lit "subsystem.do_some_work")

theorem does_delete {P : SubCode → FunctorDef SubWorld SubCode Nat} {past : List CtxEvent} {i : Nat} {o : Subsystem} {k : SubProg R} (ho : σ.user.at i = some o)
    (hn : o.names = subsystemNames) (h : Does P catching self l past k { without σ with user := σ.user.put i none } es e σ') :
    Does P catching self l past (deleteSubsystem i k) σ es e σ' := by
  refine does_on ho ?_
  rw [hn]
  exact .remove (.remove (.remove (.remove (.get (.set h)))))

/-! ## Tables -/

theorem table_new {b j : Nat} {on : Bool} (h : σ.commands = subTable b on j) :
    (withNew σ).commands = subTable σ.made true σ.user.objects.length := by
  funext n
  simp only [withNew, Scene.add, h, subTable, Scene.numbered]
  by_cases h1 : n = lit "subsystem.do_some_work"
  · subst h1; simp
  by_cases h2 : n = lit "subsystem.data"
  · subst h2; simp
  by_cases h3 : n = lit "subsystem.counter"
  · subst h3; simp
  by_cases h4 : n = lit "subsystem.time"
  · subst h4; simp
  simp [h1, h2, h3, h4]

theorem table_without {b j b' j' : Nat} {on : Bool} (h : σ.commands = subTable b on j) : (without σ).commands = subTable b' false j' := by
  funext n
  simp only [without, Scene.remove, h, subTable]
  by_cases h1 : n = lit "subsystem.do_some_work"
  · subst h1; simp
  by_cases h2 : n = lit "subsystem.data"
  · subst h2; simp
  by_cases h3 : n = lit "subsystem.counter"
  · subst h3; simp
  by_cases h4 : n = lit "subsystem.time"
  · subst h4; simp
  simp [h1, h2, h3, h4]

/-! ## Calls -/

variable {P : SubCode → FunctorDef SubWorld SubCode Nat} {i : Input} {fs : List (Inst SubCode Nat)} {f : Inst SubCode Nat} {b j : Nat} {g : Stage}

theorem performs_returned {d : FunctorDef SubWorld SubCode Nat} (hd : P f.code = d) (hn : i.name ≠ []) (hc : σ.commands i.name = some fs)
    (hf : FirstOfArity P i.arguments.length fs f) {xs : Args d.params} (hx : ConvertTo d.params i.arguments xs) {r : d.R}
    (hb : Does P catching f i.namedArguments [] (d.body xs) σ [] (.ret r) σ') :
    Performs P catching σ (.input i) σ' (.ok ⟨i, [], d.print.map (fun p => p r), []⟩) := by
  subst hd
  have := Performs.returned (catching := catching) hn hc hf hx hb
  simpa [errorsOf, outputOf, namedAfter] using this

theorem performs_count (hn : i.name ≠ []) (hc : σ.commands i.name = some fs) (h : ∀ g ∈ fs, (P g.code).params.length ≠ i.arguments.length) :
    ∃ m, Performs P catching σ (.input i) σ (.ok ⟨i, [m], none, []⟩) := ⟨_, .count hn hc h⟩

/-- The commands of a variable that is a member of the object `j`. -/
theorem performs_variable {T : Type} {conv : Conv T} (hT : ∀ v, ∃ r, conv.fromString v = .ok r) {read : Subsystem → T}
    {write : T → Subsystem → Subsystem} {c0 c1 : SubCode} (h0 : P c0 = memberGetDef conv read) (h1 : P c1 = memberSetDef conv read write)
    (hn : i.name ≠ []) (hc : σ.commands i.name = some [⟨b, c0, j⟩, ⟨b + 1, c1, j⟩]) {o : Subsystem} (ho : σ.user.at j = some o)
    (hj : σ.user.objects[j]? = some (some o)) (hw : ∀ x, read (write x o) = x) :
    (i.arguments = [] ∧ Performs P catching σ (.input i) σ (.ok ⟨i, [], some (conv.toString (read o)), []⟩)) ∨
      (∃ v x, i.arguments = [v] ∧ conv.fromString v = .ok (.ok x) ∧
        Performs P catching σ (.input i) { σ with user := σ.user.put j (some (write x o)) } (.ok ⟨i, [], some (conv.toString x), []⟩)) ∨
      ((∀ v, i.arguments = [v] → ∃ m, conv.fromString v = .ok (.error m)) ∧ i.arguments ≠ [] ∧
        ∃ m, Performs P catching σ (.input i) σ (.ok ⟨i, [m], none, []⟩)) := by
  match ha : i.arguments with
  | [] =>
    refine .inl ⟨rfl, ?_⟩
    have hf : FirstOfArity P i.arguments.length [⟨b, c0, j⟩, ⟨b + 1, c1, j⟩] ⟨b, c0, j⟩ :=
      ⟨[], [⟨b + 1, c1, j⟩], rfl, by simp [h0, ha, memberGetDef], by simp⟩
    exact performs_returned (d := memberGetDef conv read) h0 hn hc hf (xs := ()) (by rw [ha]; trivial)
      (.captured ⟨_, _, hc, by simp⟩ (does_on (k := fun o => .ret (read o)) ho .ret))
  | [v] =>
    have hf : FirstOfArity P i.arguments.length [⟨b, c0, j⟩, ⟨b + 1, c1, j⟩] ⟨b + 1, c1, j⟩ :=
      ⟨[⟨b, c0, j⟩], [], rfl, by simp [h1, ha, memberSetDef], by simp [h0, ha, memberGetDef]⟩
    obtain ⟨r, hr⟩ := hT v
    cases r with
    | ok x =>
      refine .inr (.inl ⟨v, x, rfl, hr, ?_⟩)
      have hlt := (List.getElem?_eq_some_iff.1 hj).1
      refine performs_returned (d := memberSetDef conv read write) h1 hn hc hf (xs := (x, ())) (by rw [ha]; exact ⟨hr, trivial⟩) (r := x)
        (.captured ⟨_, _, hc, by simp⟩ (does_on (k := fun o => .get fun w => .set (w.put j (some (write x o))) <| onSubsystem j fun o' => .ret (read o'))
          ho (.get (.set (does_on (k := fun o => .ret (read o)) (o := write x o) (by simp [SubWorld.at, SubWorld.put, hlt]) ?_)))))
      rw [hw]
      exact .ret
    | error m =>
      refine .inr (.inr ⟨fun v' h => ?_, by simp, m, ?_⟩)
      · cases h; exact ⟨m, hr⟩
      · have e : conversionErrors (P c1).params i.arguments = [m] := by
          rw [h1, ha]; simp [memberSetDef, conversionErrors, hr]
        have := Performs.mismatch (catching := catching) hn hc hf (by rw [h1, ha]; exact ⟨⟨_, hr⟩, trivial⟩)
          (by rw [e]; simp)
        rwa [e] at this
  | _ :: _ :: rest =>
    refine .inr (.inr ⟨by simp, by simp, performs_count hn hc ?_⟩)
    simp [h0, h1, ha, memberGetDef, memberSetDef]

theorem arith_total {α : Type} {name : Bytes} {parse : Bytes → Option α} {print : α → Bytes} (v : Value) :
    ∃ r, (arithConv name parse print).fromString v = .ok r := by
  match v with
  | ⟨[]⟩ => exact ⟨_, rfl⟩
  | ⟨[s]⟩ =>
    cases h : parse s with
    | none => exact ⟨.error (genericError name ⟨[s]⟩ []), by simp [arithConv, h]⟩
    | some x => exact ⟨.ok x, by simp [arithConv, h]⟩
  | ⟨_ :: _ :: _⟩ => exact ⟨_, rfl⟩

theorem string_total (v : Value) : ∃ r, stringConv.fromString v = .ok r := by
  match v with
  | ⟨[]⟩ => exact ⟨_, rfl⟩
  | ⟨[s]⟩ => exact ⟨_, rfl⟩
  | ⟨_ :: _ :: _⟩ => exact ⟨_, rfl⟩

/-! ## Steps -/

variable {d : Delims}

theorem changes_new (h : Chapters σ.changes) : Chapters (withNew σ).changes := by
  have := h.adds (f1 := Scene.numbered σ.made [(.time, σ.user.objects.length), (.setTime, σ.user.objects.length)])
    (f2 := Scene.numbered (σ.made + 2) [(.counter, σ.user.objects.length), (.setCounter, σ.user.objects.length)])
    (f3 := Scene.numbered (σ.made + 4) [(.data, σ.user.objects.length), (.setData, σ.user.objects.length)])
    (f4 := Scene.numbered (σ.made + 6) [(.work, σ.user.objects.length)])
  simpa [withNew, Scene.add] using this

theorem changes_without (h : Chapters σ.changes) : Chapters (without σ).changes := by
  simpa [without, Scene.remove] using h.removes

theorem step_create (h : Staged d σ g) (hi : i.name = lit "create_subsystem") (ha : i.arguments = []) :
    ∃ σ', Performs (subFunctions pl tiny) catching σ (.input i) σ' (.ok ⟨i, [], none, []⟩) ∧
      Staged d σ' ⟨some Part.fresh, g.part.isNone⟩ := by
  obtain ⟨b, hb⟩ := h.commands
  have hc : σ.commands i.name = some [⟨0, .create, 0⟩] := by simp [hb, hi, subTable]
  have hf : FirstOfArity (subFunctions pl tiny) i.arguments.length [⟨0, .create, 0⟩] ⟨0, .create, 0⟩ :=
    ⟨[], [], rfl, by simp [subFunctions, createDef, ha], by simp⟩
  have ht := table_new hb
  have hh : (withNew σ).Has ⟨0, .create, 0⟩ := ⟨lit "create_subsystem", _, by rw [ht]; simp [subTable]; rfl, by simp⟩
  have fits := h.fits
  simp only [Fitting] at fits
  cases hw : σ.user.current with
  | none =>
    rw [hw] at fits
    have hg := fits.1
    refine ⟨{ withNew σ with user := { (withNew σ).user with current := some σ.user.objects.length } }, ?_, ?_⟩
    · refine performs_returned (d := createDef) rfl (by simp [hi]) hc hf (xs := ()) (by rw [ha]; trivial) (r := ())
        (does_new (k := fun i => .captured fun _ => resetSubsystem (some i)) (.captured hh (.get (.set ?_))))
      have : (withNew σ).user.current = none := hw
      rw [this]
      exact .ret
    · subst hg
      refine ⟨⟨_, by simpa [Stage.empty] using ht⟩, ?_, by simp, h.reads, changes_new h.changes⟩
      refine ⟨Part.fresh, rfl, by simp [withNew, Subsystem.made, Part.fresh], fun j hj o ho => ?_⟩
      simp only [withNew] at ho
      rw [List.getElem?_append] at ho
      split at ho
      · exact fits.2 o (List.mem_of_getElem? ho)
      · rw [List.getElem?_singleton] at ho
        split at ho
        · omega
        · cases ho
  | some k =>
    rw [hw] at fits
    obtain ⟨p, hp, hk, hrest⟩ := fits
    have hlt := (List.getElem?_eq_some_iff.1 hk).1
    refine ⟨{ without { withNew σ with user := { (withNew σ).user with current := some σ.user.objects.length } } with
      user := { (withNew σ).user with current := some σ.user.objects.length }.put k none }, ?_, ?_⟩
    · refine performs_returned (d := createDef) rfl (by simp [hi]) hc hf (xs := ()) (by rw [ha]; trivial) (r := ())
        (does_new (k := fun i => .captured fun _ => resetSubsystem (some i)) (.captured hh (.get (.set ?_))))
      have : (withNew σ).user.current = some k := hw
      rw [this]
      refine does_delete (o := ⟨p.time, p.counter, p.data, subsystemNames⟩) ?_ rfl .ret
      simp [SubWorld.at, withNew, List.getElem?_append, hlt]
      exact (List.getElem?_eq_some_iff.1 hk).2
    · rw [hp]
      refine ⟨⟨0, table_without ht⟩, ?_, by simp, h.reads, changes_without (changes_new h.changes)⟩
      refine ⟨Part.fresh, rfl, ?_, fun j hj o ho => ?_⟩
      · simp only [withNew, SubWorld.put]
        rw [List.getElem?_set_ne (by omega)]
        simp [Subsystem.made, Part.fresh]
      · simp only [withNew, SubWorld.put] at ho
        rw [List.getElem?_set] at ho
        split at ho
        · split at ho
          · exact (Option.some.inj ho).symm
          · cases ho
        · rename_i hjk
          rw [List.getElem?_append] at ho
          split at ho
          · exact hrest j (fun e => hjk e.symm) o ho
          · rw [List.getElem?_singleton] at ho
            split at ho
            · omega
            · cases ho

theorem step_destroy (h : Staged d σ g) (hi : i.name = lit "destroy_subsystem") (ha : i.arguments = []) :
    ∃ σ', Performs (subFunctions pl tiny) catching σ (.input i) σ' (.ok ⟨i, [], none, []⟩) ∧ Staged d σ' Stage.empty := by
  obtain ⟨b, hb⟩ := h.commands
  have hc : σ.commands i.name = some [⟨1, .destroy, 0⟩] := by simp [hb, hi, subTable]
  have hf : FirstOfArity (subFunctions pl tiny) i.arguments.length [⟨1, .destroy, 0⟩] ⟨1, .destroy, 0⟩ :=
    ⟨[], [], rfl, by simp [subFunctions, destroyDef, ha], by simp⟩
  have hh : σ.Has ⟨1, .destroy, 0⟩ := ⟨_, _, hc, by simp⟩
  have fits := h.fits
  simp only [Fitting] at fits
  cases hw : σ.user.current with
  | none =>
    rw [hw] at fits
    have hg := fits.1
    refine ⟨{ σ with user := { σ.user with current := none } }, ?_, ?_⟩
    · refine performs_returned (d := destroyDef) rfl (by simp [hi]) hc hf (xs := ()) (by rw [ha]; trivial) (r := ())
        (.captured hh (.get (.set ?_)))
      rw [hw]
      exact .ret
    · subst hg
      exact ⟨⟨b, by simpa [Stage.empty, hw] using hb⟩, ⟨rfl, fits.2⟩, by simp [Stage.empty], h.reads, h.changes⟩
  | some k =>
    rw [hw] at fits
    obtain ⟨p, hp, hk, hrest⟩ := fits
    have hlt := (List.getElem?_eq_some_iff.1 hk).1
    refine ⟨{ without { σ with user := { σ.user with current := none } } with user := { σ.user with current := none }.put k none }, ?_, ?_⟩
    · refine performs_returned (d := destroyDef) rfl (by simp [hi]) hc hf (xs := ()) (by rw [ha]; trivial) (r := ())
        (.captured hh (.get (.set ?_)))
      rw [hw]
      refine does_delete (o := ⟨p.time, p.counter, p.data, subsystemNames⟩) ?_ rfl .ret
      simp [SubWorld.at, hk]
    · refine ⟨⟨0, table_without hb⟩, ⟨rfl, fun o ho => ?_⟩, by simp [Stage.empty], h.reads, changes_without h.changes⟩
      obtain ⟨j, hj⟩ := List.mem_iff_getElem?.1 ho
      simp only [SubWorld.put] at hj
      rw [List.getElem?_set] at hj
      split at hj
      · exact (Option.some.inj hj).symm
      · rename_i hjk
        exact hrest j (fun e => hjk e.symm) o hj


end Coil
