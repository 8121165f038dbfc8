import Verif.Model.CheckedExec
import Verif.Proofs.Checked
import Verif.Proofs.CheckedLexer
import Verif.Proofs.Registry
import Verif.Spec.AssertsExec

/-! # Executing commands in builds with assertions -/

namespace Coil
open Spec

namespace Mirrored

variable {α β γ δ : Type} {stop : Prop} {R : α → β → Prop} {Q : γ → δ → Prop}

theorem bind {x : Res α} {y : Res β} {f : α → Res γ} {g : β → Res δ} (h : Mirrors stop R x y)
    (hf : ∀ a b, R a b → Mirrors stop Q (f a) (g b)) : Mirrors stop Q (x >>= f) (y >>= g) := by
  cases h with
  | ok h => exact hf _ _ h
  | ub u => exact .ub u
  | diverge => exact .diverge
  | stop y h => exact .stop _ h

theorem refl {Q : α → α → Prop} (x : Res α) (h : ∀ a, Q a a) : Mirrors stop Q x x := by
  cases x with
  | ok a => exact .ok (h a)
  | ub u => exact .ub u
  | diverge => exact .diverge

theorem of_stops {x y : Res α} (h : Stops x y) : Mirrors True Eq x y := by
  rcases h with h | h
  · subst h; exact refl _ (fun _ => rfl)
  · subst h; exact .stop _ trivial

theorem mono {Q : α → β → Prop} {x : Res α} {y : Res β} (h : Mirrors stop R x y) (hq : ∀ a b, x = .ok a → y = .ok b → R a b → Q a b) :
    Mirrors stop Q x y := by
  cases h with
  | ok h => exact .ok (hq _ _ rfl rfl h)
  | ub u => exact .ub u
  | diverge => exact .diverge
  | stop y h => exact .stop _ h

end Mirrored

variable {S W C D R : Type} {P : C → FunctorDef W C D} {catching : Bool}

/-- What the two containers have to do with each other, in states with `I`. -/
structure OpsMirror (stop : Prop) (I : S → Prop) (opsC ops : RegOps S C D) : Prop where
  find : ∀ m k, I m → Mirrors stop Eq (opsC.find m k) (ops.find m k)
  put : ∀ m k v, I m → Mirrors stop (fun a b => a = b ∧ I a) (opsC.put m k v) (ops.put m k v)
  erase : ∀ m k, I m → Mirrors stop (fun a b => a = b ∧ I a) (opsC.erase m k) (ops.erase m k)
  clear : ∀ m, I m → opsC.clear m = ops.clear m ∧ I (opsC.clear m)
  all : ∀ m, opsC.all m = ops.all m

/-- Related states. -/
def Tied (I : S → Prop) (lC l : Option Lexer) (s s' : Sys S W C D) : Prop := s.lexer = lC ∧ s' = setLexer s l ∧ I s.reg

/-- Related states with equal further components. -/
def Tied2 {α : Type} (I : S → Prop) (lC l : Option Lexer) (x y : Sys S W C D × α) : Prop := Tied I lC l x.1 y.1 ∧ x.2 = y.2

variable {stop : Prop} {I : S → Prop} {opsC ops : RegOps S C D} {lC l : Option Lexer}

theorem mirror_add (h : OpsMirror stop I opsC ops) {s s' : Sys S W C D} (t : Tied I lC l s s') (n : Bytes) (fs : List (C × D)) :
    Mirrors stop (Tied I lC l) (bindingsAdd opsC s n fs) (bindingsAdd ops s' n fs) := by
  obtain ⟨t1, rfl, t3⟩ := t
  refine Mirrored.bind (h.find _ n t3) (fun o o' ho => ?_)
  subst ho
  refine Mirrored.bind (h.put _ n _ t3) (fun m m' hm => ?_)
  obtain ⟨rfl, hi⟩ := hm
  exact .ok ⟨t1, rfl, hi⟩

theorem mirror_remove (h : OpsMirror stop I opsC ops) {s s' : Sys S W C D} (t : Tied I lC l s s') (n : Bytes) :
    Mirrors stop (Tied I lC l) (bindingsRemove opsC s n) (bindingsRemove ops s' n) := by
  obtain ⟨t1, rfl, t3⟩ := t
  refine Mirrored.bind (h.find _ n t3) (fun o o' ho => ?_)
  subst ho
  refine Mirrored.bind (h.erase _ n t3) (fun m m' hm => ?_)
  obtain ⟨rfl, hi⟩ := hm
  exact .ok ⟨t1, rfl, hi⟩

theorem tied_clear (h : OpsMirror stop I opsC ops) {s s' : Sys S W C D} (t : Tied I lC l s s') :
    Tied I lC l (bindingsClear opsC s) (bindingsClear ops s') := by
  obtain ⟨t1, rfl, t3⟩ := t
  refine ⟨t1, ?_, (h.clear _ t3).2⟩
  simp [bindingsClear, setLexer, h.all, (h.clear _ t3).1]

/-- The nested calls are related. -/
def NestedMirror (stop : Prop) (I : S → Prop) (lC l : Option Lexer) (neC ne : Nested S W C D) : Prop :=
  ∀ s s' req, Tied I lC l s s' → Mirrors stop (Tied2 I lC l) (neC.exec s req) (ne.exec s' req)

theorem mirror_run (h : OpsMirror stop I opsC ops) {neC ne : Nested S W C D} (hne : NestedMirror stop I lC l neC ne) (self : Inst C D)
    (p : Prog W C D R) : ∀ (s s' : Sys S W C D) (c : CallCtx), Tied I lC l s s' →
      Mirrors stop (Tied2 I lC l) (p.run opsC neC self s c) (p.run ops ne self s' c) := by
  induction p with
  | ret r => exact fun s s' c t => .ok ⟨t, rfl⟩
  | throw e => exact fun s s' c t => .ok ⟨t, rfl⟩
  | ub w => exact fun s s' c t => .ub w
  | diverge => exact fun s s' c t => .diverge
  | log _ k ih => exact fun s s' c t => ih s s' _ t
  | logline _ k ih => exact fun s s' c t => ih s s' _ t
  | reportError _ k ih => exact fun s s' c t => ih s s' _ t
  | hasErrors k ih => exact fun s s' c t => ih _ s s' _ t
  | named k ih => exact fun s s' c t => ih _ s s' _ t
  | setNamed i v k ih =>
    exact fun s s' c t => Mirrored.bind (R := Eq) (Mirrored.refl _ (fun _ => rfl)) (fun a b hab => hab ▸ ih s s' a t)
  | get k ih =>
    intro s s' c t
    obtain ⟨t1, rfl, t3⟩ := t
    exact ih s.user s _ c ⟨t1, rfl, t3⟩
  | set w k ih =>
    intro s s' c t
    obtain ⟨t1, rfl, t3⟩ := t
    exact ih _ _ c ⟨t1, rfl, t3⟩
  | captured k ih =>
    intro s s' c t
    have ht := t
    obtain ⟨t1, rfl, t3⟩ := t
    simp only [Prog.run]
    change Mirrors _ _ (if self.id ∈ s.freed then _ else _) (if self.id ∈ s.freed then _ else _)
    split
    · exact .ub _
    · exact ih _ s _ c ht
  | add n fs k ih => exact fun s s' c t => Mirrored.bind (mirror_add h t n fs) (fun a b hab => ih a b c hab)
  | remove n k ih => exact fun s s' c t => Mirrored.bind (mirror_remove h t n) (fun a b hab => ih a b c hab)
  | clear k ih => exact fun s s' c t => ih _ _ c (tied_clear h t)
  | execLine x k ih =>
    intro s s' c t
    refine Mirrored.bind (hne s s' (.line x) t) (fun a b hab => ?_)
    obtain ⟨a1, a2⟩ := a
    obtain ⟨b1, b2⟩ := b
    obtain ⟨h1, h2⟩ := hab
    cases h2
    exact ih a2 a1 b1 c h1
  | execInput x k ih =>
    intro s s' c t
    refine Mirrored.bind (hne s s' (.input x) t) (fun a b hab => ?_)
    obtain ⟨a1, a2⟩ := a
    obtain ⟨b1, b2⟩ := b
    obtain ⟨h1, h2⟩ := hab
    cases h2
    exact ih a2 a1 b1 c h1

theorem convertArgsC_eq (args : List Value) : ∀ (ps : List Param) (i : Nat), i + ps.length ≤ args.length →
    convertArgsC args ps i = convertArgs args ps i := by
  intro ps
  induction ps with
  | nil => exact fun _ _ => rfl
  | cons p ps ih =>
    intro i hi
    simp only [List.length_cons] at hi
    simp only [convertArgsC, convertArgs]
    have hr : readAt args i = .ok args[i] := readAt_ok (List.getElem?_eq_getElem (by omega))
    rw [readC_of_ok hr, hr, ih (i + 1) (by omega)]

theorem takeValuesC_eq : ∀ (ps : List Param) (es : Expecteds ps), anyMissing ps es = false → takeValuesC ps es = takeValues ps es := by
  intro ps
  induction ps with
  | nil => exact fun _ _ => rfl
  | cons p ps ih =>
    rintro ⟨e, rest⟩ h
    cases e with
    | error m => simp [anyMissing] at h
    | ok x =>
      simp only [anyMissing, Bool.false_or] at h
      simp only [takeValuesC, takeValues, ih rest h]

theorem mirror_invoke (h : OpsMirror stop I opsC ops) {neC ne : Nested S W C D} (hne : NestedMirror stop I lC l neC ne) {depth : Nat}
    {f : Inst C D} {s s' : Sys S W C D} {c : CallCtx} (t : Tied I lC l s s') (ha : arity P f = c.input.arguments.length) :
    Mirrors stop (Tied2 I lC l) (invokeFunctorC P opsC neC depth f s c) (invokeFunctor P ops ne depth f s' c) := by
  have ht := t
  obtain ⟨t1, rfl, t3⟩ := t
  simp only [invokeFunctorC, invokeFunctor]
  change Mirrors _ _ (if f.id ∈ s.freed then _ else _) (if f.id ∈ s.freed then _ else _)
  split
  · exact .ub _
  · rw [convertArgsC_eq _ _ _ (by simp only [arity] at ha; omega)]
    refine Mirrored.bind (R := Eq) (Mirrored.refl _ (fun _ => rfl)) (fun es es' hes => ?_)
    subst hes
    by_cases hm : anyMissing (P f.code).params es = true
    · simp only [hm, if_true]
      exact .ok ⟨ht, rfl⟩
    · simp only [hm]
      rw [takeValuesC_eq _ _ (by simpa using hm)]
      refine Mirrored.bind (R := Eq) (Mirrored.refl _ (fun _ => rfl)) (fun xs xs' hxs => ?_)
      subst hxs
      refine Mirrored.bind (mirror_run h hne f _ _ _ c ?_) (fun a b hab => ?_)
      · exact ⟨t1, rfl, t3⟩
      · obtain ⟨a1, a2⟩ := a
        obtain ⟨b1, b2⟩ := b
        obtain ⟨h1, h2⟩ := hab
        cases h2
        exact .ok ⟨h1, rfl⟩

theorem selectLoop_arity {n : Nat} {fs : List (Inst C D)} {f : Inst C D} (h : selectLoop P n fs = some f) : f ∈ fs ∧ arity P f = n := by
  induction fs with
  | nil => cases h
  | cons g fs ih =>
    simp only [selectLoop] at h
    split at h
    · cases h
      exact ⟨List.mem_cons_self .., by assumption⟩
    · exact ⟨List.mem_cons_of_mem _ (ih h).1, (ih h).2⟩

theorem mirror_input (h : OpsMirror stop I opsC ops) {neC ne : Nested S W C D} (hne : NestedMirror stop I lC l neC ne) {depth : Nat}
    {s s' : Sys S W C D} (t : Tied I lC l s s') (i : Input) :
    Mirrors stop (Tied2 I lC l) (executeInputC P opsC catching neC depth s i) (executeInput P ops catching ne depth s' i) := by
  refine Mirrored.bind (R := Tied2 I lC l) ?_ (fun a b hab => ?_)
  · simp only [executeCtxC, executeCtx]
    split
    · exact .ok ⟨t, rfl⟩
    · obtain ⟨t1, rfl, t3⟩ := t
      refine Mirrored.bind (h.find _ _ t3) (fun o o' ho => ?_)
      subst ho
      cases o with
      | none => exact .ok ⟨⟨t1, rfl, t3⟩, rfl⟩
      | some cmd =>
        simp only
        cases hs : selectLoop P i.arguments.length cmd.functors with
        | none => exact .ok ⟨⟨t1, rfl, t3⟩, rfl⟩
        | some f =>
          refine Mirrored.bind (mirror_invoke (s' := setLexer s l) h hne ⟨t1, rfl, t3⟩ (selectLoop_arity hs).2) (fun a b hab => ?_)
          obtain ⟨a1, a2⟩ := a
          obtain ⟨b1, b2⟩ := b
          obtain ⟨h1, h2⟩ := hab
          cases h2
          exact .ok ⟨h1, rfl⟩
  · obtain ⟨a1, a2, a3⟩ := a
    obtain ⟨b1, b2⟩ := b
    obtain ⟨h1, h2⟩ := hab
    cases h2
    cases a3 with
    | none => exact .ok ⟨h1, rfl⟩
    | some e => exact .ok ⟨h1, rfl⟩

theorem mirror_line (h : OpsMirror stop I opsC ops) (hl : SameLexer stop lC l) {neC ne : Nested S W C D}
    (hne : NestedMirror stop I lC l neC ne) {depth : Nat} {s s' : Sys S W C D} (t : Tied I lC l s s') (x : Bytes) :
    Mirrors stop (Tied2 I lC l) (executeLineC P opsC catching neC depth s x) (executeLine P ops catching ne depth s' x) := by
  have ht := t
  obtain ⟨t1, rfl, t3⟩ := t
  have hls : (setLexer s l).lexer = l := rfl
  simp only [executeLineC, executeLine]
  rw [t1, hls]
  cases hl with
  | none hs => exact .stop _ hs
  | some hs =>
    refine Mirrored.bind (hs x) (fun o o' ho => ?_)
    subst ho
    cases o with
    | error e => exact .ok ⟨ht, rfl⟩
    | ok i => exact mirror_input h hne ht i

theorem mirror_nested (h : OpsMirror stop I opsC ops) (hl : SameLexer stop lC l) (fuel : Nat) : ∀ depth : Nat,
    NestedMirror stop I lC l (nestedC P opsC catching fuel depth) (nested P ops catching fuel depth) := by
  induction fuel with
  | zero =>
    intro depth s s' req t
    cases req <;> exact .diverge
  | succ fuel ih =>
    intro depth s s' req t
    cases req with
    | line x => exact mirror_line h hl (ih _) t x
    | input i => exact mirror_input h (ih _) t i

theorem mirror_actAll (h : OpsMirror stop I opsC ops) {fuel : Nat} {actsC acts : List (Action W C D)} (ha : SameActions stop actsC acts) :
    ∀ {lC l : Option Lexer} (s s' : Sys S W C D), SameLexer stop lC l → Tied I lC l s s' →
      Mirrors stop (fun a b => ∃ lC l, SameLexer stop lC l ∧ Tied I lC l a b) (actAllC P opsC catching fuel s actsC)
        (actAll P ops catching fuel s' acts) := by
  induction ha with
  | nil => exact fun s s' hl t => .ok ⟨_, _, hl, t⟩
  | @cons a a' _ _ h1 _ ih =>
    intro lC l s s' hl t
    refine Mirrored.bind (R := fun a b => ∃ lC l, SameLexer stop lC l ∧ Tied I lC l a b) ?_ (fun a b hab => ?_)
    · cases h1 with
      | same _ hn =>
        cases a with
        | add n fs => exact Mirrored.mono (mirror_add h t n fs) (fun a b _ _ hab => ⟨_, _, hl, hab⟩)
        | remove n => exact Mirrored.mono (mirror_remove h t n) (fun a b _ _ hab => ⟨_, _, hl, hab⟩)
        | clear => exact .ok ⟨_, _, hl, tied_clear h t⟩
        | setLexer l => exact absurd rfl (hn l)
        | exec req =>
          refine Mirrored.bind (mirror_nested h hl fuel 0 s s' req t) (fun a b hab => ?_)
          exact .ok ⟨_, _, hl, hab.1⟩
        | setUser w =>
          obtain ⟨t1, rfl, t3⟩ := t
          exact .ok ⟨_, _, hl, t1, rfl, t3⟩
      | setLexer hs =>
        obtain ⟨t1, rfl, t3⟩ := t
        exact .ok ⟨_, _, hs, rfl, rfl, t3⟩
    · obtain ⟨lC', l', hl', t'⟩ := hab
      exact ih a b hl' t'

/-! ## The containers -/

theorem mapMirror (fixed charSigned : Bool) (exceeds : Nat → Nat → Bool) :
    OpsMirror (C := C) (D := D) True (fun _ => True) (mapOpsC fixed charSigned exceeds) (mapOps fixed charSigned exceeds) where
  find _ _ _ := Mirrored.of_stops UMap.stops_find
  put _ _ v _ := Mirrored.mono (Mirrored.of_stops (UMap.stops_put exceeds v)) (fun _ _ _ _ h => ⟨h, trivial⟩)
  erase _ _ _ := Mirrored.mono (Mirrored.of_stops UMap.stops_erase) (fun _ _ _ _ h => ⟨h, trivial⟩)
  clear _ _ := ⟨rfl, trivial⟩
  all _ := rfl

/-- A map that is a dictionary. -/
def Dictionary (charSigned : Bool) (m : UMap Bytes (Command C D)) : Prop :=
  ∃ ph d, UMap.Good (djb2 charSigned) ph m ∧ Lists m.entries d

theorem dictionary_step {charSigned : Bool} {exceeds : Nat → Nat → Bool} (hex : ∀ b, 0 < b → exceeds 1 b = false)
    {m : UMap Bytes (Command C D)} (h : Dictionary charSigned m) (op : DictOp Bytes (Command C D)) :
    ∃ m', UMap.applyOp true (djb2 charSigned) exceeds m op = .ok m' ∧ UMap.applyOpC true (djb2 charSigned) exceeds m op = .ok m' ∧
      Dictionary charSigned m' := by
  obtain ⟨ph, d, g, hd⟩ := h
  obtain ⟨m1, s1, s2, s3⟩ := UMap.step_spec hex (fixed := true) g hd.1 op (.inl rfl)
  refine ⟨m1, s1, ?_, _, dictStep d op, s2, by rw [s3]; exact UMap.lists_step hd op⟩
  cases op with
  | put k v => exact UMap.putC_of_ok s1
  | erase k => exact UMap.eraseC_repaired g.wf s1
  | clear => exact s1

theorem mapMirror_repaired {charSigned : Bool} {exceeds : Nat → Nat → Bool} (hex : ∀ b, 0 < b → exceeds 1 b = false) :
    OpsMirror (C := C) (D := D) False (Dictionary charSigned) (mapOpsC true charSigned exceeds) (mapOps true charSigned exceeds) where
  find m k h := by
    obtain ⟨ph, d, g, hd⟩ := h
    have h1 := UMap.find_spec g.wf hd k
    change Mirrors _ _ (UMap.findC _ m k) (UMap.find _ m k)
    rw [UMap.findC_of_ok h1, h1]
    exact .ok rfl
  put m k v h := by
    obtain ⟨m', h1, h2, h3⟩ := dictionary_step hex h (.put k v)
    change Mirrors _ _ (UMap.insertOrAssignC _ exceeds m k v) (UMap.insertOrAssign _ exceeds m k v)
    change UMap.insertOrAssign _ exceeds m k v = _ at h1
    change UMap.insertOrAssignC _ exceeds m k v = _ at h2
    rw [h1, h2]
    exact .ok ⟨rfl, h3⟩
  erase m k h := by
    obtain ⟨m', h1, h2, h3⟩ := dictionary_step hex h (.erase k)
    change Mirrors _ _ (UMap.eraseC _ true m k) (UMap.eraseWith _ true m k)
    change UMap.eraseWith _ true m k = _ at h1
    change UMap.eraseC _ true m k = _ at h2
    rw [h1, h2]
    exact .ok ⟨rfl, h3⟩
  clear m h := by
    obtain ⟨m', h1, _, h3⟩ := dictionary_step hex h .clear
    cases h1
    exact ⟨rfl, h3⟩
  all _ := rfl

/-! ## The lexer, for texts of any length -/

section Lexer

variable {cfg : LexCfg}

theorem stops_sub {β : Type} {v : View} {a b : Nat} {f g : View → Res β} (h : ∀ w, Stops (f w) (g w)) :
    Stops (v.substrC a b >>= f) (g (v.substr a b)) := Stops.bind (y := .ok (v.substr a b)) stops_substr h

theorem stops_tokLoop (s : Bytes) : ∀ (fuel i : Nat) (toks : List Token), Stops (tokLoopC cfg s fuel i toks) (tokLoop cfg s fuel i toks) := by
  intro fuel
  induction fuel with
  | zero => exact fun _ _ => .refl _
  | succ fuel ih =>
    intro i toks
    simp only [tokLoopC, tokLoop]
    split
    · split
      · exact .refl _
      · refine Stops.bind stops_read (fun c => ?_)
        cases cfg.getCharType c with
        | string => exact stops_sub (fun w => ih _ _)
        | assignment => exact stops_sub (fun w => ih _ _)
        | quote =>
          simp only
          split
          · exact Stops.bind stops_read (fun q => .refl _)
          · exact stops_sub (fun w => ih _ _)
        | group =>
          simp only
          split
          · exact Stops.bind stops_read (fun q => .refl _)
          · exact stops_sub (fun w => ih _ _)
        | space => exact .refl _
    · exact .refl _

theorem stops_splitLoop (s : Bytes) (v : View) : ∀ (fuel i : Nat) (l : List View), Stops (splitLoopC cfg s v fuel i l) (splitLoop cfg s v fuel i l) := by
  intro fuel
  induction fuel with
  | zero => exact fun _ _ => .refl _
  | succ fuel ih =>
    intro i l
    simp only [splitLoopC, splitLoop]
    split
    · split
      · exact .refl _
      · refine Stops.bind stops_read (fun c => Stops.bind ?_ (fun b => stops_sub (fun w => ih _ _)))
        unfold strippedC
        split
        · exact Stops.bind stops_read (fun q => .refl _)
        · exact .refl _
    · exact .refl _

theorem stops_createValue (mem : Bytes) (t : Token) : Stops (createValueC cfg mem t) (createValue cfg mem t) := by
  unfold createValueC createValue
  split
  · exact Stops.bind (Stops.bind (.refl _) (fun s => stops_splitLoop _ _ _ _ _)) (fun _ => .refl _)
  · exact .refl _

theorem stops_addCurrent (mem : Bytes) (st : ParseSt) (o : Option Token) : Stops (addCurrentC cfg mem st o) (addCurrent cfg mem st o) := by
  unfold addCurrentC addCurrent
  cases st.primary with
  | none => exact .refl _
  | some p =>
    cases o with
    | none => exact Stops.bind (stops_createValue _ _) (fun _ => .refl _)
    | some t => exact Stops.bind (stops_createValue _ _) (fun _ => .refl _)

theorem stops_parseStep (mem : Bytes) (st : ParseSt) (t : Token) : Stops (parseStepC cfg mem st t) (parseStep cfg mem st t) := by
  have key : Stops
      (if st.wantSecondary then
        if st.primary.isNone then .ok (.error errInternal)
        else addCurrentC cfg mem st (some t) >>= fun st => .ok (.ok { st with wantSecondary := false })
      else (if st.primary.isSome then addCurrentC cfg mem st none else .ok st) >>= fun st =>
        .ok (.ok { st with primary := some t, wantSecondary := false }) : Res (Except Bytes ParseSt))
      (if st.wantSecondary then
        if st.primary.isNone then .ok (.error errInternal)
        else addCurrent cfg mem st (some t) >>= fun st => .ok (.ok { st with wantSecondary := false })
      else (if st.primary.isSome then addCurrent cfg mem st none else .ok st) >>= fun st =>
        .ok (.ok { st with primary := some t, wantSecondary := false })) := by
    split
    · split
      · exact .refl _
      · exact Stops.bind (stops_addCurrent _ _ _) (fun _ => .refl _)
    · refine Stops.bind ?_ (fun _ => .refl _)
      split
      · exact stops_addCurrent _ _ _
      · exact .refl _
  unfold parseStepC parseStep
  cases t.type with
  | assignment => exact .refl _
  | string => exact key
  | groupString => exact key

theorem stops_parseLoop (mem : Bytes) : ∀ (toks : List Token) (st : ParseSt), Stops (parseLoopC cfg mem toks st) (parseLoop cfg mem toks st) := by
  intro toks
  induction toks with
  | nil =>
    intro st
    simp only [parseLoopC, parseLoop]
    split
    · exact .refl _
    · exact Stops.bind (stops_addCurrent _ _ _) (fun _ => .refl _)
  | cons t toks ih =>
    intro st
    refine Stops.bind (stops_parseStep _ _ _) (fun r => ?_)
    cases r with
    | error e => exact .refl _
    | ok st => exact ih st

theorem stops_lexParse (s : Bytes) : Stops (lexParseC cfg s) (lexParse cfg s) := by
  refine Stops.bind (stops_tokLoop _ _ _ _) (fun r => ?_)
  cases r with
  | error e => exact .refl _
  | ok toks =>
    simp only [parseTokensC, parseTokens]
    cases toks with
    | nil => exact .refl _
    | cons t toks =>
      simp only
      split
      · exact .refl _
      · exact stops_parseLoop _ _ _

theorem stops_lexRead (s : Bytes) : Stops (lexReadC cfg s) (lexRead cfg s) := Stops.bind (stops_lexParse s) (fun _ => .refl _)

theorem contained_lexRead {s : Bytes} (h : FitsMemory s) : Contained (lexReadC cfg s) := by
  unfold lexReadC
  rcases lexParse_both (cfg := cfg) h with ⟨e, -, h2 | h2⟩ | ⟨i, -, ⟨h2, h3⟩ | ⟨h2, -⟩⟩
  · rw [h2]; exact .ok
  · rw [h2]; exact .stop
  · rw [h2]
    simp only [Res.bind_ok]
    have := read_isOk_iff.2 h3
    cases hr : i.read s with
    | ok r => exact .ok
    | ub u => simp [hr] at this
    | diverge => simp [hr] at this
  · rw [h2]; exact .stop

end Lexer

/-! ## No undefined behaviour but the use of what was destroyed -/

/-- The only undefined behaviour is a failed assertion or, with `changes`, the use of a destroyed object. -/
def Bounded {α : Type} (changes : Prop) (Q : α → Prop) : Res α → Prop
  | .ok a => Q a
  | .ub u => u = .assertion ∨ (changes ∧ u = .useAfterFree)
  | .diverge => True

namespace Bounded

variable {α β : Type} {changes : Prop} {Q : α → Prop} {Q' : β → Prop}

theorem bind {x : Res α} {f : α → Res β} (h : Bounded changes Q x) (hf : ∀ a, Q a → Bounded changes Q' (f a)) :
    Bounded changes Q' (x >>= f) := by
  cases x with
  | ok a => exact hf a h
  | ub u => exact h
  | diverge => trivial

theorem of_contained {x : Res α} (h : Contained x) (hq : ∀ a, x = .ok a → Q a) : Bounded changes Q x := by
  cases x with
  | ok a => exact hq a rfl
  | ub u => exact .inl (h u rfl)
  | diverge => trivial

theorem mono {Q1 : α → Prop} {x : Res α} (h : Bounded changes Q x) (hq : ∀ a, Q a → Q1 a) : Bounded changes Q1 x := by
  cases x with
  | ok a => exact hq a h
  | ub u => exact h
  | diverge => trivial

end Bounded

/-- What a container has to do, in states with `I`. -/
structure OpsBounded (I : S → Prop) (ops : RegOps S C D) : Prop where
  find : ∀ m k, I m → Contained (ops.find m k)
  put : ∀ m k v, I m → Contained (ops.put m k v) ∧ ∀ m', ops.put m k v = .ok m' → I m'
  erase : ∀ m k, I m → Contained (ops.erase m k) ∧ ∀ m', ops.erase m k = .ok m' → I m'
  clear : ∀ m, I m → I (ops.clear m)

/-- Everything found is alive. -/
def Alive (ops : RegOps S C D) (s : Sys S W C D) : Prop :=
  ∀ k cmd, ops.find s.reg k = .ok (some cmd) → ∀ f ∈ cmd.functors, f.id ∉ s.freed

/-- The states in which no undefined behaviour waits. Without `changes` the registry and the destroyed objects are those of `s0`. -/
structure Sane (changes : Prop) (I : S → Prop) (ops : RegOps S C D) (s : Sys S W C D) : Prop where
  reg : I s.reg
  lexer : CarefulLexer s.lexer
  alive : ¬ changes → Alive ops s

/-- A step that keeps `Sane` and, without `changes`, what was destroyed. -/
def Keeps {α : Type} (changes : Prop) (I : S → Prop) (ops : RegOps S C D) (s : Sys S W C D) (x : Sys S W C D × α) : Prop :=
  Sane changes I ops x.1 ∧ (¬ changes → x.1.freed = s.freed)

/-- Nested calls are bounded. -/
def NestedBounded (changes : Prop) (I : S → Prop) (ops : RegOps S C D) (ne : Nested S W C D) : Prop :=
  (∀ s t, FitsMemory t → Sane changes I ops s → Bounded changes (Keeps changes I ops s) (ne.line s t)) ∧
  ∀ s i, Sane changes I ops s → Bounded changes (Keeps changes I ops s) (ne.input s i)

section Bound

variable {changes : Prop}

theorem bounded_add (h : OpsBounded I ops) {s : Sys S W C D} (t : Sane changes I ops s) (hc : changes) (n : Bytes) (fs : List (C × D)) :
    Bounded changes (Sane changes I ops) (bindingsAdd ops s n fs) := by
  refine Bounded.bind (Bounded.of_contained (Q := fun _ => True) (h.find _ n t.reg) (fun _ _ => trivial)) (fun o _ => ?_)
  refine Bounded.bind (Bounded.of_contained (Q := I) (h.put _ n _ t.reg).1 (h.put _ n _ t.reg).2) (fun m hm => ?_)
  exact ⟨hm, t.lexer, fun hn => absurd hc hn⟩

theorem bounded_remove (h : OpsBounded I ops) {s : Sys S W C D} (t : Sane changes I ops s) (hc : changes) (n : Bytes) :
    Bounded changes (Sane changes I ops) (bindingsRemove ops s n) := by
  refine Bounded.bind (Bounded.of_contained (Q := fun _ => True) (h.find _ n t.reg) (fun _ _ => trivial)) (fun o _ => ?_)
  refine Bounded.bind (Bounded.of_contained (Q := I) (h.erase _ n t.reg).1 (h.erase _ n t.reg).2) (fun m hm => ?_)
  exact ⟨hm, t.lexer, fun hn => absurd hc hn⟩

theorem sane_clear (h : OpsBounded I ops) {s : Sys S W C D} (t : Sane changes I ops s) (hc : changes) :
    Sane changes I ops (bindingsClear ops s) := ⟨h.clear _ t.reg, t.lexer, fun hn => absurd hc hn⟩

theorem bounded_run (h : OpsBounded I ops) {ne : Nested S W C D} (hne : NestedBounded changes I ops ne) {self : Inst C D} {n : Nat}
    {p : Prog W C D R} (hp : Careful changes n p) : ∀ (s : Sys S W C D) (c : CallCtx), Sane changes I ops s →
      c.input.namedArguments.length = n → (¬ changes → self.id ∉ s.freed) →
      Bounded changes (Keeps changes I ops s) (p.run ops ne self s c) := by
  induction hp with
  | ret r => exact fun s c t _ _ => ⟨t, fun _ => rfl⟩
  | throw e => exact fun s c t _ _ => ⟨t, fun _ => rfl⟩
  | diverge => exact fun s c t _ _ => trivial
  | log _ _ ih => exact fun s c t hc hf => ih s _ t hc hf
  | logline _ _ ih => exact fun s c t hc hf => ih s _ t hc hf
  | reportError _ _ ih => exact fun s c t hc hf => ih s _ t hc hf
  | hasErrors _ ih => exact fun s c t hc hf => ih _ s _ t hc hf
  | named _ ih => exact fun s c t hc hf => ih _ hc s _ t hc hf
  | @setNamed i v k hi _ ih =>
    intro s c t hc hf
    simp only [Prog.run, CallCtx.setNamed, writeAt, hc, hi, if_true, Res.bind_ok]
    exact ih s _ t (by simpa using hc) hf
  | get _ ih => exact fun s c t hc hf => ih _ s _ t hc hf
  | set w _ ih => exact fun s c t hc hf => ih _ _ ⟨t.reg, t.lexer, t.alive⟩ hc hf
  | captured _ ih =>
    intro s c t hc hf
    simp only [Prog.run]
    split
    · by_cases hch : changes
      · exact .inr ⟨hch, rfl⟩
      · exact absurd (by assumption) (hf hch)
    · exact ih _ s c t hc hf
  | add n fs hch _ ih =>
    exact fun s c t hc hf => Bounded.bind (bounded_add h t hch n fs) (fun a ha => Bounded.mono (ih a c ha hc (fun x => absurd hch x))
      (fun b hb => ⟨hb.1, fun x => absurd hch x⟩))
  | remove n hch _ ih =>
    exact fun s c t hc hf => Bounded.bind (bounded_remove h t hch n) (fun a ha => Bounded.mono (ih a c ha hc (fun x => absurd hch x))
      (fun b hb => ⟨hb.1, fun x => absurd hch x⟩))
  | clear hch _ ih =>
    exact fun s c t hc hf => Bounded.mono (ih _ c (sane_clear h t hch) hc (fun x => absurd hch x))
      (fun b hb => ⟨hb.1, fun x => absurd hch x⟩)
  | execLine ht _ ih =>
    intro s c t hc hf
    refine Bounded.bind (hne.1 s _ ht t) (fun a ha => ?_)
    obtain ⟨a1, a2⟩ := a
    refine Bounded.mono (ih a2 a1 c ha.1 hc (fun x => by rw [ha.2 x]; exact hf x)) (fun b hb => ⟨hb.1, fun x => ?_⟩)
    rw [hb.2 x, ha.2 x]
  | execInput i _ ih =>
    intro s c t hc hf
    refine Bounded.bind (hne.2 s i t) (fun a ha => ?_)
    obtain ⟨a1, a2⟩ := a
    refine Bounded.mono (ih a2 a1 c ha.1 hc (fun x => by rw [ha.2 x]; exact hf x)) (fun b hb => ⟨hb.1, fun x => ?_⟩)
    rw [hb.2 x, ha.2 x]

theorem bounded_convert (args : List Value) : ∀ (ps : List Param) (i : Nat), (∀ p ∈ ps, ∀ v, Contained (p.conv.fromString v)) →
    Bounded changes (fun _ => True) (convertArgsC args ps i) := by
  intro ps
  induction ps with
  | nil => exact fun _ _ => trivial
  | cons p ps ih =>
    intro i hp
    refine Bounded.bind (Bounded.of_contained (Q := fun _ => True) contained_read (fun _ _ => trivial)) (fun a _ => ?_)
    refine Bounded.bind (Bounded.of_contained (Q := fun _ => True) (hp p (by simp) a) (fun _ _ => trivial)) (fun e _ => ?_)
    exact Bounded.bind (ih (i + 1) (fun q hq => hp q (by simp [hq]))) (fun _ _ => trivial)

theorem bounded_take : ∀ (ps : List Param) (es : Expecteds ps), Bounded changes (fun _ => True) (takeValuesC ps es) := by
  intro ps
  induction ps with
  | nil => exact fun _ => trivial
  | cons p ps ih =>
    rintro ⟨e, rest⟩
    cases e with
    | error m => exact .inl rfl
    | ok x => exact Bounded.bind (ih rest) (fun _ _ => trivial)

theorem bounded_input (hP : CarefulFunctions changes P) (h : OpsBounded I ops) {ne : Nested S W C D} (hne : NestedBounded changes I ops ne)
    {depth : Nat} (s : Sys S W C D) (i : Input) (t : Sane changes I ops s) :
    Bounded changes (Keeps changes I ops s) (executeInputC P ops catching ne depth s i) := by
  refine Bounded.bind (Q := Keeps changes I ops s) ?_ (fun a ha => ?_)
  · simp only [executeCtxC]
    split
    · exact ⟨t, fun _ => rfl⟩
    · refine Bounded.bind (Bounded.of_contained (Q := fun o => ops.find s.reg i.name = .ok o) (h.find _ _ t.reg) (fun _ ho => ho)) (fun o ho => ?_)
      cases o with
      | none => exact ⟨t, fun _ => rfl⟩
      | some cmd =>
        simp only
        cases hs : selectLoop P i.arguments.length cmd.functors with
        | none => exact ⟨t, fun _ => rfl⟩
        | some f =>
          refine Bounded.bind (Q := Keeps changes I ops s) ?_ (fun a ha => ha)
          simp only [invokeFunctorC]
          split
          · by_cases hch : changes
            · exact .inr ⟨hch, rfl⟩
            · exact absurd (by assumption) (t.alive hch _ _ ho f (selectLoop_arity hs).1)
          · refine Bounded.bind (bounded_convert _ _ _ (hP.conv f.code)) (fun es _ => ?_)
            split
            · exact ⟨t, fun _ => rfl⟩
            · refine Bounded.bind (bounded_take _ _) (fun xs _ => ?_)
              refine Bounded.bind (bounded_run h hne (hP.body f.code xs i.namedArguments.length) _ _ ?_ rfl
                (fun x => t.alive x _ _ ho f (selectLoop_arity hs).1)) (fun a ha => ha)
              exact ⟨t.reg, t.lexer, t.alive⟩
  · obtain ⟨a1, a2, a3⟩ := a
    cases a3 with
    | none => exact ha
    | some e => exact ha

theorem bounded_line (hP : CarefulFunctions changes P) (h : OpsBounded I ops) {ne : Nested S W C D} (hne : NestedBounded changes I ops ne)
    {depth : Nat} (s : Sys S W C D) (x : Bytes) (hx : FitsMemory x) (t : Sane changes I ops s) :
    Bounded changes (Keeps changes I ops s) (executeLineC P ops catching ne depth s x) := by
  simp only [executeLineC]
  cases hl : s.lexer with
  | none => exact .inl rfl
  | some l =>
    refine Bounded.bind (Bounded.of_contained (Q := fun _ => True) (t.lexer l hl x hx) (fun _ _ => trivial)) (fun o _ => ?_)
    cases o with
    | error e => exact ⟨t, fun _ => rfl⟩
    | ok i => exact bounded_input hP h hne s i t

theorem bounded_nested (hP : CarefulFunctions changes P) (h : OpsBounded I ops) (fuel : Nat) : ∀ depth : Nat,
    NestedBounded changes I ops (nestedC P ops catching fuel depth) := by
  induction fuel with
  | zero => exact fun depth => ⟨fun _ _ _ _ => trivial, fun _ _ _ => trivial⟩
  | succ fuel ih => exact fun depth => ⟨fun s x hx t => bounded_line hP h (ih _) s x hx t, fun s i t => bounded_input hP h (ih _) s i t⟩

end Bound

theorem mapBounded {charSigned fixed : Bool} {exceeds : Nat → Nat → Bool} (hex : ∀ b, 0 < b → exceeds 1 b = false) :
    OpsBounded (C := C) (D := D) (fun m => 0 < m.buckets.length) (mapOpsC fixed charSigned exceeds) where
  find _ _ h := UMap.contained_find h
  put m k v h := ⟨UMap.contained_put hex h v, fun m' hm =>
    UMap.apply_buckets_pos hex h (op := .put k v) (fixed := fixed) ((UMap.stops_apply (fixed := fixed) (.put k v)).of_ok hm)⟩
  erase m k h := ⟨UMap.contained_erase h, fun m' hm =>
    UMap.apply_buckets_pos hex h (op := .erase k) ((UMap.stops_apply (exceeds := exceeds) (.erase k)).of_ok hm)⟩
  clear m h := by simpa [mapOpsC, UMap.clear] using h

end Coil
