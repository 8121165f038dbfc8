import Verif.Proofs.Serial

/-!
# Serializers without effects: the two models agree
-/

namespace Coil
open Spec

variable {S W C D : Type} {ops : RegOps S C D} {ne ne' : Nested S W C D}

/-- The same results. -/
def Nested.Agree (a b : Nested S W C D) : Prop := ∀ s req x, a.exec s req = .ok x ↔ b.exec s req = .ok x

theorem Runs.agree {R : Type} (hne : ne.Agree ne') {self : Inst C D} {l : List Named} {past es : List CtxEvent}
    {p : Prog W C D R} {s s' : Sys S W C D} {e : End R} (h : Runs ops ne self l past p s es e s') :
    Runs ops ne' self l past p s es e s' := by
  induction h with
  | ret => exact .ret
  | throw => exact .throw
  | log _ ih => exact .log ih
  | logline _ ih => exact .logline ih
  | reportError _ ih => exact .reportError ih
  | hasErrors _ ih => exact .hasErrors ih
  | named _ ih => exact .named ih
  | setNamed h0 _ ih => exact .setNamed h0 ih
  | get _ ih => exact .get ih
  | set _ ih => exact .set ih
  | captured h0 _ ih => exact .captured h0 ih
  | add h0 _ ih => exact .add h0 ih
  | remove h0 _ ih => exact .remove h0 ih
  | clear _ ih => exact .clear ih
  | execLine h0 _ ih => exact .execLine ((hne _ (.line _) _).1 h0) ih
  | execInput h0 _ ih => exact .execInput ((hne _ (.input _) _).1 h0) ih

theorem Nested.Agree.symm (h : ne.Agree ne') : ne'.Agree ne := fun s req x => (h s req x).symm

theorem pure_run {R : Type} (x : Res R) (s : Sys S W C D) {s' : Sys S W C D} {e : End R} :
    (Ser.pure x : Ser W C D R).run ops ne s = .ok (s', e) ↔ s' = s ∧ ∃ r, x = .ok r ∧ e = .ret r := by
  cases x with
  | ok r =>
    simp only [Ser.pure, Ser.run, Res.ok.injEq, Prod.mk.injEq]
    constructor
    · rintro ⟨rfl, rfl⟩; exact ⟨rfl, r, rfl, rfl⟩
    · rintro ⟨rfl, _, rfl, rfl⟩; exact ⟨rfl, rfl⟩
  | ub w => simp [Ser.pure, Ser.run]
  | diverge => simp [Ser.pure, Ser.run]

/-- Conversions without effects. -/
theorem convs_pure {d : FunctorDef W C D} {args : List Value} {r : Results d.toSer} {is : List (Fin d.params.length)}
    {s s' : Sys S W C D} :
    Convs ops ne d.toSer args r is s s' ↔
      s' = s ∧ ∀ i ∈ is, ∃ a, args[i.val]? = some a ∧ (d.params.get i).conv.fromString a = .ok (r i) := by
  induction is with
  | nil => exact Convs.nil_iff.trans (by simp)
  | cons i is ih =>
    constructor
    · intro h
      obtain ⟨a, s1, h1, h2, h3⟩ := Convs.cons_iff.1 h
      obtain ⟨rfl, v, h4, h5⟩ := (pure_run _ _).1 h2
      cases h5
      obtain ⟨h6, h7⟩ := ih.1 h3
      refine ⟨h6, ?_⟩
      intro j hj
      rcases List.mem_cons.1 hj with rfl | hj
      · exact ⟨a, h1, h4⟩
      · exact h7 j hj
    · rintro ⟨rfl, h⟩
      obtain ⟨a, h1, h2⟩ := h i List.mem_cons_self
      exact .cons h1 ((pure_run _ _).2 ⟨rfl, _, h2, rfl⟩) (ih.2 ⟨rfl, fun j hj => h j (List.mem_cons_of_mem _ hj)⟩)

theorem convThrows_pure {d : FunctorDef W C D} {args : List Value} {is : List (Fin d.params.length)}
    {s s' : Sys S W C D} {x : Exn} : ¬ ConvThrows ops ne d.toSer args is s s' x := by
  rintro ⟨r, pre, i, post, s1, a, _, _, _, h⟩
  obtain ⟨_, _, _, h⟩ := (pure_run _ _).1 h
  cases h

/-- The result of each conversion, for the parameters `ps`. -/
def Gives (ps : List Param) (args : List Value) (r : (i : Fin ps.length) → Except Bytes (ps.get i).T) : Prop :=
  ∀ i : Fin ps.length, ∃ a, args[i.val]? = some a ∧ (ps.get i).conv.fromString a = .ok (r i)

/-- The message of a failed conversion. -/
def messageOf {α : Type} : Except Bytes α → Option Bytes
  | .error m => some m
  | .ok _ => none

/-- The messages, for the parameters `ps`. -/
def messagesOf (ps : List Param) (r : (i : Fin ps.length) → Except Bytes (ps.get i).T) : List Bytes :=
  (List.finRange ps.length).filterMap fun i => messageOf (r i)

theorem messagesOf_cons (p : Param) (ps : List Param) (r : (i : Fin (p :: ps).length) → Except Bytes ((p :: ps).get i).T) :
    messagesOf (p :: ps) r = (messageOf (r ⟨0, Nat.zero_lt_succ _⟩)).toList ++ messagesOf ps (fun i => r i.succ) := by
  have h : List.finRange (p :: ps).length = ⟨0, Nat.zero_lt_succ _⟩ :: (List.finRange ps.length).map Fin.succ :=
    List.finRange_succ
  have h2 : messagesOf ps (fun i => r i.succ) =
      (List.finRange ps.length).filterMap ((fun i => messageOf (r i)) ∘ Fin.succ) := rfl
  rw [h2]
  unfold messagesOf
  rw [h, List.filterMap_cons, List.filterMap_map]
  cases messageOf (r ⟨0, Nat.zero_lt_succ _⟩) <;> rfl

theorem messages_toSer {d : FunctorDef W C D} (r : Results d.toSer) : messages r = messagesOf d.params r := by
  unfold messages messagesOf
  congr 1
  funext i
  cases r i <;> rfl

theorem gives_cons {p : Param} {ps : List Param} {a : Value} {as : List Value}
    {r : (i : Fin (p :: ps).length) → Except Bytes ((p :: ps).get i).T} :
    Gives (p :: ps) (a :: as) r ↔
      p.conv.fromString a = .ok (r ⟨0, Nat.zero_lt_succ _⟩) ∧ Gives ps as (fun i => r i.succ) := by
  constructor
  · intro h
    refine ⟨?_, fun i => ?_⟩
    · obtain ⟨b, h1, h2⟩ := h ⟨0, Nat.zero_lt_succ _⟩
      simp only [List.getElem?_cons_zero, Option.some.injEq] at h1
      subst h1
      exact h2
    · obtain ⟨b, h1, h2⟩ := h i.succ
      exact ⟨b, by simpa using h1, h2⟩
  · rintro ⟨h1, h2⟩ i
    rcases i with ⟨_ | i, hi⟩
    · exact ⟨a, rfl, h1⟩
    · obtain ⟨b, h3, h4⟩ := h2 ⟨i, Nat.lt_of_succ_lt_succ hi⟩
      exact ⟨b, by simpa using h3, h4⟩

/-- The conversions are defined when each one gives a result, and the messages are the same. -/
theorem gives_defined (ps : List Param) (args : List Value) (hl : ps.length = args.length)
    (r : (i : Fin ps.length) → Except Bytes (ps.get i).T) (h : Gives ps args r) :
    ConversionsDefined ps args ∧ conversionErrors ps args = messagesOf ps r := by
  induction ps generalizing args with
  | nil =>
    cases args with
    | nil => exact ⟨trivial, rfl⟩
    | cons a as => simp at hl
  | cons p ps ih =>
    cases args with
    | nil => simp at hl
    | cons a as =>
      obtain ⟨h1, h2⟩ := gives_cons.1 h
      obtain ⟨h3, h4⟩ := ih as (by simpa using hl) _ h2
      refine ⟨⟨⟨_, h1⟩, h3⟩, ?_⟩
      rw [messagesOf_cons, ← h4]
      simp only [conversionErrors, h1]
      cases r ⟨0, Nat.zero_lt_succ _⟩ <;> rfl

theorem defined_gives (ps : List Param) (args : List Value) (h : ConversionsDefined ps args) : ∃ r, Gives ps args r := by
  induction ps generalizing args with
  | nil => exact ⟨fun i => i.elim0, fun i => i.elim0⟩
  | cons p ps ih =>
    cases args with
    | nil => exact h.elim
    | cons a as =>
      obtain ⟨⟨v, hv⟩, h2⟩ := h
      obtain ⟨r, hr⟩ := ih as h2
      refine ⟨fun i => match i with
        | ⟨0, _⟩ => v
        | ⟨i + 1, hi⟩ => r ⟨i, Nat.lt_of_succ_lt_succ hi⟩, gives_cons.2 ⟨hv, hr⟩⟩

theorem convertTo_iff (ps : List Param) (args : List Value) (hl : ps.length = args.length)
    (xs : (i : Fin ps.length) → (ps.get i).T) :
    ConvertTo ps args (argsFrom ps xs) ↔ Gives ps args (fun i => .ok (xs i)) := by
  induction ps generalizing args with
  | nil =>
    cases args with
    | nil => exact ⟨fun _ i => i.elim0, fun _ => trivial⟩
    | cons a as => simp at hl
  | cons p ps ih =>
    cases args with
    | nil => simp at hl
    | cons a as =>
      rw [gives_cons, ← ih as (by simpa using hl)]
      exact Iff.rfl

/-- The values of a parameter list, position by position. -/
def argAt : (ps : List Param) → Args ps → (i : Fin ps.length) → (ps.get i).T
  | _ :: _, (x, _), ⟨0, _⟩ => x
  | _ :: ps, (_, xs), ⟨i + 1, hi⟩ => argAt ps xs ⟨i, Nat.lt_of_succ_lt_succ hi⟩

theorem argsFrom_argAt (ps : List Param) (xs : Args ps) : argsFrom ps (argAt ps xs) = xs := by
  induction ps with
  | nil => rfl
  | cons p ps ih =>
    obtain ⟨x, xs⟩ := xs
    have : argsFrom (p :: ps) (argAt (p :: ps) (x, xs)) = (x, argsFrom ps (argAt ps xs)) := rfl
    rw [this, ih xs]

theorem caughtError_eq (x : Exn) : caughtError x = caughtText x := by cases x <;> rfl

section

variable {P : C → FunctorDef W C D} {order : (c : C) → List (Fin (P c).toSer.arity)} {catching : Bool} {depth : Nat}

theorem selectSer_pure (n : Nat) (fs : List (Inst C D)) : selectSer (fun c => (P c).toSer) n fs = selectLoop P n fs := by
  induction fs with
  | nil => rfl
  | cons f rest ih =>
    simp only [selectSer, selectLoop, arity, ih]
    rfl

theorem executeInput_pure (ho : IsOrder (fun c => (P c).toSer) order) (hne : ne.Agree ne') (s : Sys S W C D)
    (input : Input) (s' : Sys S W C D) (out : ExecOut) :
    executeInputSer (fun c => (P c).toSer) order ops catching ne depth s input = .ok (s', out) ↔
      executeInput P ops catching ne' depth s input = .ok (s', out) := by
  by_cases hn : input.name = []
  · simp only [executeInputSer, executeCtxSer, executeInput, executeCtx, hn, if_true]
    exact Iff.rfl
  cases hf : ops.find s.reg input.name with
  | ub w => simp [executeInputSer, executeCtxSer, executeInput, executeCtx, hn, hf]
  | diverge => simp [executeInputSer, executeCtxSer, executeInput, executeCtx, hn, hf]
  | ok o =>
    cases o with
    | none => simp only [executeInputSer, executeCtxSer, executeInput, executeCtx, hn, hf, if_false, Res.bind_ok]
    | some cmd =>
      cases hs : selectLoop P input.arguments.length cmd.functors with
      | none =>
        have hs' := (selectSer_pure (P := P) input.arguments.length cmd.functors).trans hs
        simp only [executeInputSer, executeCtxSer, executeInput, executeCtx, hn, hf, hs, hs', if_false, Res.bind_ok]
        exact Iff.rfl
      | some f =>
        have hs' := selectSer_some.1 ((selectSer_pure (P := P) input.arguments.length cmd.functors).trans hs)
        have hs := selectLoop_some.1 hs
        have hlen : (P f.code).params.length = input.arguments.length := by obtain ⟨_, _, _, h, _⟩ := hs; exact h
        by_cases hl : f.id ∈ s.freed
        · rw [executeInput_selected hn hf hs, executeInputSer_selected hn hf hs']
          simp [invokeFunctor, invokeSer, hl]
        rw [executeInputSer_iff ho hn hf hs' hl]
        have hgive : ∀ {r : Results (P f.code).toSer} {s1 : Sys S W C D},
            Convs ops ne (P f.code).toSer input.arguments r (order f.code) s s1 →
              s1 = s ∧ Gives (P f.code).params input.arguments r := by
          intro r s1 h
          obtain ⟨h1, h2⟩ := convs_pure.1 h
          exact ⟨h1, fun i => h2 i (order_mem ho f.code i)⟩
        have hconv : ∀ {r : Results (P f.code).toSer} {xs}, Gives (P f.code).params input.arguments r → AreValues r xs →
            ConvertTo (P f.code).params input.arguments (argsFrom _ xs) := by
          intro r xs h hx
          have : r = fun i => .ok (xs i) := funext hx
          subst this
          exact (convertTo_iff _ _ hlen _).2 h
        constructor
        · intro h
          cases h with
          | conversionThrows h => exact absurd h convThrows_pure
          | rejected hr hm =>
            obtain ⟨rfl, hg⟩ := hgive hr
            obtain ⟨h1, h2⟩ := gives_defined _ _ hlen _ hg
            have hne : conversionErrors (P f.code).params input.arguments ≠ [] := by rw [h2, ← messages_toSer]; exact hm
            rw [executeInput_rejected hn hf hs hl h1 hne, h2, messages_toSer]
          | @throws r xs s1 es _ x hr hx _ hrun =>
            obtain ⟨rfl, hg⟩ := hgive hr
            refine (executeInput_called hn hf hs hl (hconv hg hx)).2 ⟨es, _, Runs.agree hne hrun, ?_⟩
            cases catching <;> simp [afterThrow, endResult, resultOf, caughtError_eq]
          | @void r xs s1 es v _ hr hx _ hrun hp =>
            obtain ⟨rfl, hg⟩ := hgive hr
            refine (executeInput_called hn hf hs hl (hconv hg hx)).2 ⟨es, _, Runs.agree hne hrun, ?_⟩
            have : (P f.code).print = none := by simpa [FunctorDef.toSer] using hp
            simp [endResult, resultOf, this]
          | @unprintable r xs s1 es v s2 print _ x hr hx _ hrun hp ht =>
            obtain ⟨q, _, rfl⟩ := Option.map_eq_some_iff.1 hp
            simp [Ser.run] at ht
          | @printed r xs s1 es v s2 print _ t hr hx _ hrun hp ht =>
            obtain ⟨rfl, hg⟩ := hgive hr
            obtain ⟨q, hq, rfl⟩ := Option.map_eq_some_iff.1 hp
            simp only [Ser.run, Res.ok.injEq, Prod.mk.injEq, End.ret.injEq] at ht
            obtain ⟨rfl, rfl⟩ := ht
            refine (executeInput_called hn hf hs hl (hconv hg hx)).2 ⟨es, _, Runs.agree hne hrun, ?_⟩
            simp [endResult, resultOf, hq]
        · intro h
          rcases executeInput_cases h with ⟨h0, _⟩ | ⟨_, h0, _⟩ | ⟨_, cmd', h0, h1, _⟩ |
            ⟨_, cmd', f', h0, h1, _, h3, h4, rfl, rfl⟩ | ⟨_, cmd', f', xs, es, e, h0, h1, _, h3, h4, rfl⟩
          · exact absurd h0 hn
          · rw [hf] at h0; cases h0
          · rw [hf] at h0
            cases h0
            obtain ⟨pre, post, h5, h6, _⟩ := hs
            exact absurd h6 (h1 f (by simp [h5]))
          · rw [hf] at h0
            cases h0
            have : f' = f := by
              have a := selectLoop_some.2 h1
              rw [selectLoop_some.2 hs] at a
              cases a
              rfl
            subst this
            obtain ⟨r, hr⟩ := defined_gives _ _ h3
            have hm : messages (d := (P f'.code).toSer) r = conversionErrors (P f'.code).params input.arguments :=
              (messages_toSer (d := P f'.code) r).trans (gives_defined _ _ hlen r hr).2.symm
            rw [← hm]
            rw [← hm] at h4
            exact .rejected (r := r) (convs_pure.2 ⟨rfl, fun i _ => hr i⟩) h4
          · rw [hf] at h0
            cases h0
            have : f' = f := by
              have a := selectLoop_some.2 h1
              rw [selectLoop_some.2 hs] at a
              cases a
              rfl
            subst this
            have hg := (convertTo_iff _ _ hlen (argAt _ xs)).1 (by rw [argsFrom_argAt]; exact h3)
            have hr : Convs ops ne (P f'.code).toSer input.arguments (fun i => .ok (argAt _ xs i)) (order f'.code) s s :=
              convs_pure.2 ⟨rfl, fun i _ => hg i⟩
            have hrun : Runs ops ne f' input.namedArguments [] ((P f'.code).toSer.body (argAt _ xs))
                { s with calls := s.calls ++ [(depth, f'.id)] } es e s' := by
              have : (P f'.code).toSer.body (argAt _ xs) = (P f'.code).body xs := by
                show (P f'.code).body (argsFrom _ (argAt _ xs)) = _
                rw [argsFrom_argAt]
              rw [this]
              exact Runs.agree hne.symm h4
            cases e with
            | exn x =>
              have := CallGives.throws (catching := catching) hr (fun _ => rfl) hl hrun
              have he : endResult catching input (P f'.code).print es (.exn x) =
                  afterThrow catching (resultOf input es none) x := by
                cases catching <;> simp [afterThrow, endResult, resultOf, caughtError_eq]
              rw [he]
              exact this
            | ret v =>
              cases hp : (P f'.code).print with
              | none =>
                have := CallGives.void (catching := catching) hr (fun _ => rfl) hl hrun
                  (by simp [FunctorDef.toSer, hp])
                have he : endResult catching input none es (.ret v) = .ok (resultOf input es none) := by
                  simp [endResult, resultOf]
                rw [he]
                exact this
              | some q =>
                have := CallGives.printed (catching := catching) (print := fun r => .ret (q r)) (t := q v) (s' := s')
                  hr (fun _ => rfl) hl hrun (by simp [FunctorDef.toSer, hp]) rfl
                have he : endResult catching input (some q) es (.ret v) = .ok (resultOf input es (some (q v))) := by
                  simp [endResult, resultOf]
                rw [he]
                exact this

theorem nested_pure (ho : IsOrder (fun c => (P c).toSer) order) (fuel : Nat) : ∀ depth,
    (nestedSer (fun c => (P c).toSer) order ops catching fuel depth).Agree (nested P ops catching fuel depth) := by
  induction fuel with
  | zero => intro depth s req x; cases req <;> simp [nestedSer, nested, Nested.exec]
  | succ fuel ih =>
    rintro depth s req ⟨s', out⟩
    cases req with
    | line t =>
      simp only [nestedSer, nested, Nested.exec, executeLineSer, executeLine]
      cases s.lexer with
      | none => exact Iff.rfl
      | some l =>
        simp only
        cases l t with
        | ub w => exact Iff.rfl
        | diverge => exact Iff.rfl
        | ok o =>
          cases o with
          | error m => exact Iff.rfl
          | ok i => exact executeInput_pure ho (ih _) _ _ _ _
    | input i => exact executeInput_pure ho (ih _) _ _ _ _

end

end Coil
