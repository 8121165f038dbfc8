import Verif.Spec.Serial
import Verif.Props.Exec

/-!
# Lemmas about arbitrary serializers
-/

namespace Coil
open Spec

variable {S W C D : Type} {ops : RegOps S C D} {ne : Nested S W C D} {d : SerDef W C D} {args : List Value}

theorem Convs.nil_iff {r : Results d} {s s' : Sys S W C D} : Convs ops ne d args r [] s s' ↔ s' = s := by
  constructor
  · intro h; cases h; rfl
  · rintro rfl; exact .nil

theorem Convs.cons_iff {r : Results d} {i : Fin d.arity} {is : List (Fin d.arity)} {s s' : Sys S W C D} :
    Convs ops ne d args r (i :: is) s s' ↔
      ∃ a s1, args[i.val]? = some a ∧ ((d.param i).fromString a).run ops ne s = .ok (s1, .ret (r i)) ∧
        Convs ops ne d args r is s1 s' := by
  constructor
  · intro h; cases h with
    | cons h1 h2 h3 => exact ⟨_, _, h1, h2, h3⟩
  · rintro ⟨a, s1, h1, h2, h3⟩; exact .cons h1 h2 h3

/-- Only the results of the converted arguments matter. -/
theorem Convs.congr {r r' : Results d} {is : List (Fin d.arity)} {s s' : Sys S W C D}
    (h : Convs ops ne d args r is s s') (he : ∀ i ∈ is, r i = r' i) : Convs ops ne d args r' is s s' := by
  induction h with
  | nil => exact .nil
  | cons h1 h2 _ ih =>
    refine .cons h1 ?_ (ih fun i hi => he i (List.mem_cons_of_mem _ hi))
    rw [h2, he _ List.mem_cons_self]

/-- The results are determined. -/
theorem Convs.det {r r' : Results d} {is : List (Fin d.arity)} {s s1 s2 : Sys S W C D}
    (h : Convs ops ne d args r is s s1) (h' : Convs ops ne d args r' is s s2) :
    s1 = s2 ∧ ∀ i ∈ is, r i = r' i := by
  induction h with
  | nil => cases h'; exact ⟨rfl, by simp⟩
  | cons a b _ ih =>
    obtain ⟨a', t, h1, h2, h3⟩ := Convs.cons_iff.1 h'
    rw [a] at h1
    cases h1
    rw [b] at h2
    simp only [Res.ok.injEq, Prod.mk.injEq, End.ret.injEq] at h2
    obtain ⟨rfl, h2⟩ := h2
    obtain ⟨h4, h5⟩ := ih h3
    exact ⟨h4, fun i hi => by
      rcases List.mem_cons.1 hi with rfl | hi
      · exact h2
      · exact h5 i hi⟩

theorem readAt_eq_ok {α : Type} {l : List α} {i : Nat} {a : α} : readAt l i = .ok a ↔ l[i]? = some a := by
  unfold readAt
  cases l[i]? <;> simp

theorem Slots.put_self (slots : d.Slots) (i : Fin d.arity) (r : Except Bytes (d.param i).T) :
    slots.put i r i = some r := by simp [SerDef.Slots.put]

theorem Slots.put_ne (slots : d.Slots) {i j : Fin d.arity} (r : Except Bytes (d.param i).T) (h : j ≠ i) :
    slots.put i r j = slots j := by simp [SerDef.Slots.put, h]

/-- All conversions give results. -/
theorem convertIn_ret {is : List (Fin d.arity)} (hd : is.Nodup) {slots slots' : d.Slots} {s s' : Sys S W C D} :
    convertIn ops ne d args is slots s = .ok (s', .ret slots') ↔
      ∃ r, Convs ops ne d args r is s s' ∧ ∀ j, slots' j = if j ∈ is then some (r j) else slots j := by
  induction is generalizing slots s with
  | nil =>
    simp only [convertIn, Res.ok.injEq, Prod.mk.injEq, End.ret.injEq, Convs.nil_iff, List.not_mem_nil, if_false]
    constructor
    · rintro ⟨rfl, rfl⟩; exact ⟨fun _ => .error [], rfl, fun _ => rfl⟩
    · rintro ⟨_, rfl, h⟩; exact ⟨rfl, (funext h).symm⟩
  | cons i is ih =>
    have hi : i ∉ is := (List.nodup_cons.1 hd).1
    have ih := fun (slots : d.Slots) (s : Sys S W C D) => ih (List.nodup_cons.1 hd).2 (slots := slots) (s := s)
    simp only [convertIn, Res.bind_eq_ok, readAt_eq_ok]
    constructor
    · rintro ⟨a, ha, ⟨s1, e⟩, he, h⟩
      cases e with
      | exn x => simp at h
      | ret v =>
        obtain ⟨r, h1, h2⟩ := (ih _ _).1 h
        refine ⟨fun j => if hj : j = i then hj ▸ v else r j, ?_, ?_⟩
        · refine .cons ha (by simpa using he) (Convs.congr h1 fun j hj => ?_)
          have : j ≠ i := fun e => hi (e ▸ hj)
          simp [this]
        · intro j
          rw [h2 j]
          by_cases hj : j = i
          · subst hj
            simp [hi, SerDef.Slots.put]
          · simp [hj, SerDef.Slots.put]
    · rintro ⟨r, h1, h2⟩
      obtain ⟨a, s1, ha, hr, h3⟩ := Convs.cons_iff.1 h1
      refine ⟨a, ha, (s1, .ret (r i)), hr, (ih _ _).2 ⟨r, h3, fun j => ?_⟩⟩
      rw [h2 j]
      by_cases hj : j = i
      · subst hj
        simp [hi, SerDef.Slots.put]
      · simp [hj, SerDef.Slots.put]

/-- A conversion throws. -/
theorem convertIn_exn {is : List (Fin d.arity)} (hd : is.Nodup) {slots : d.Slots} {s s' : Sys S W C D} {x : Exn} :
    convertIn ops ne d args is slots s = .ok (s', .exn x) ↔ ConvThrows ops ne d args is s s' x := by
  induction is generalizing slots s with
  | nil =>
    simp only [convertIn, Res.ok.injEq, Prod.mk.injEq, reduceCtorEq, and_false, false_iff]
    rintro ⟨r, pre, i, post, s1, a, h, _⟩
    simp at h
  | cons i is ih =>
    have hi : i ∉ is := (List.nodup_cons.1 hd).1
    have ih := fun (slots : d.Slots) (s : Sys S W C D) => ih (List.nodup_cons.1 hd).2 (slots := slots) (s := s)
    simp only [convertIn, Res.bind_eq_ok, readAt_eq_ok]
    constructor
    · rintro ⟨a, ha, ⟨s1, e⟩, he, h⟩
      cases e with
      | exn y =>
        simp only [Res.ok.injEq, Prod.mk.injEq, End.exn.injEq] at h
        obtain ⟨rfl, rfl⟩ := h
        exact ⟨fun _ => .error [], [], i, is, s, a, rfl, .nil, ha, he⟩
      | ret v =>
        obtain ⟨r, pre, j, post, s2, b, h1, h2, h3, h4⟩ := (ih _ _).1 h
        refine ⟨fun j => if hj : j = i then hj ▸ v else r j, i :: pre, j, post, s2, b, by simp [h1], ?_, h3, h4⟩
        refine .cons ha (by simpa using he) (Convs.congr h2 fun k hk => ?_)
        have : k ≠ i := fun e => hi (by rw [h1, ← e]; exact List.mem_append_left _ hk)
        simp [this]
    · rintro ⟨r, pre, j, post, s2, b, h1, h2, h3, h4⟩
      cases pre with
      | nil =>
        simp only [List.nil_append, List.cons.injEq] at h1
        obtain ⟨rfl, rfl⟩ := h1
        cases Convs.nil_iff.1 h2
        exact ⟨b, h3, (s', .exn x), h4, rfl⟩
      | cons k pre =>
        simp only [List.cons_append, List.cons.injEq] at h1
        obtain ⟨rfl, rfl⟩ := h1
        obtain ⟨a, s1, ha, hr, h5⟩ := Convs.cons_iff.1 h2
        exact ⟨a, ha, (s1, .ret (r i)), hr, (ih _ _).2 ⟨r, pre, j, post, s2, b, rfl, h5, h3, h4⟩⟩

/-- All arguments evaluated. -/
def allSlots (r : Results d) : d.Slots := fun i => some (r i)

theorem anyMissing_iff (r : Results d) : (SerDef.Slots.anyMissing (allSlots r) = true) ↔ messages r ≠ [] := by
  simp only [SerDef.Slots.anyMissing, allSlots, List.any_eq_true, messages, ne_eq, List.filterMap_eq_nil_iff]
  constructor
  · rintro ⟨i, _, h⟩ hall
    have := hall i (List.mem_finRange i)
    cases hr : r i with
    | error m => simp [hr] at this
    | ok v => simp [hr, slotHasValue] at h
  · intro h
    apply Classical.byContradiction
    intro hno
    apply h
    intro i _
    cases hr : r i with
    | error m => exact absurd ⟨i, List.mem_finRange i, by simp [hr, slotHasValue]⟩ hno
    | ok v => rfl

theorem messages_nil_iff (r : Results d) : messages r = [] ↔ ∃ xs, AreValues r xs := by
  simp only [messages, List.filterMap_eq_nil_iff, AreValues]
  constructor
  · intro h
    have h2 : ∀ i, ∃ x, r i = .ok x := by
      intro i
      have := h i (List.mem_finRange i)
      cases hr : r i with
      | error m => simp [hr] at this
      | ok v => exact ⟨v, rfl⟩
    exact ⟨fun i => (h2 i).choose, fun i => (h2 i).choose_spec⟩
  · rintro ⟨xs, h⟩ i _
    simp [h i]

theorem reportAll_eq (r : Results d) (c : CallCtx) :
    SerDef.Slots.reportAll (allSlots r) c = { c with result := { c.result with errors := c.result.errors ++ messages r } } := by
  simp only [SerDef.Slots.reportAll, allSlots, messages]
  induction List.finRange d.arity generalizing c with
  | nil => simp
  | cons i is ih =>
    rw [List.foldl_cons, ih]
    cases hr : r i with
    | error m => simp [reportSlot, CallCtx.reportError, hr]
    | ok v => simp [reportSlot, hr]

theorem takeValues_eq {r : Results d} {xs : (i : Fin d.arity) → (d.param i).T} (h : AreValues r xs) :
    SerDef.Slots.takeValues (allSlots r) = .ok xs := by
  have : ∀ i, slotHasValue (allSlots r i) = true := fun i => by simp [allSlots, h i, slotHasValue]
  simp only [SerDef.Slots.takeValues, this, implies_true, dif_pos]
  congr 1
  funext i
  have hi : allSlots r i = some (.ok (xs i)) := by simp [allSlots, h i]
  have gen : ∀ (y : Option (Except Bytes (d.param i).T)) (hy : slotHasValue y = true), y = some (.ok (xs i)) →
      slotValue y hy = xs i := by
    rintro y hy rfl
    rfl
  exact gen _ _ hi

theorem AreValues.unique {r : Results d} {xs ys : (i : Fin d.arity) → (d.param i).T} (h : AreValues r xs)
    (h' : AreValues r ys) : xs = ys := by
  funext i
  have := h i
  rw [h' i] at this
  exact (Except.ok.inj this).symm

/-! ## Selecting -/

theorem selectSer_some {P : C → SerDef W C D} {n : Nat} {fs : List (Inst C D)} {f : Inst C D} :
    selectSer P n fs = some f ↔ FirstOfArityS P n fs f := by
  induction fs with
  | nil => simp [selectSer, FirstOfArityS]
  | cons g rest ih =>
    unfold selectSer
    by_cases hg : (P g.code).arity = n
    · simp only [hg, if_true, Option.some.injEq]
      constructor
      · rintro rfl; exact ⟨[], rest, rfl, hg, by simp⟩
      · rintro ⟨pre, post, h1, h2, h3⟩
        cases pre with
        | nil => simp only [List.nil_append, List.cons.injEq] at h1; exact h1.1
        | cons k pre =>
          simp only [List.cons_append, List.cons.injEq] at h1
          exact absurd hg (h1.1 ▸ h3 k List.mem_cons_self)
    · simp only [hg, if_false]
      rw [ih]
      constructor
      · rintro ⟨pre, post, h1, h2, h3⟩
        exact ⟨g :: pre, post, by simp [h1], h2, fun k hk => by
          rcases List.mem_cons.1 hk with rfl | hk
          · exact hg
          · exact h3 k hk⟩
      · rintro ⟨pre, post, h1, h2, h3⟩
        cases pre with
        | nil =>
          simp only [List.nil_append, List.cons.injEq] at h1
          exact absurd h2 (h1.1 ▸ hg)
        | cons k pre =>
          simp only [List.cons_append, List.cons.injEq] at h1
          exact ⟨pre, post, h1.2, h2, fun k' hk => h3 k' (List.mem_cons_of_mem _ hk)⟩

theorem selectSer_none {P : C → SerDef W C D} {n : Nat} {fs : List (Inst C D)} :
    selectSer P n fs = none ↔ ∀ g ∈ fs, (P g.code).arity ≠ n := by
  induction fs with
  | nil => simp [selectSer]
  | cons g rest ih =>
    unfold selectSer
    by_cases hg : (P g.code).arity = n
    · simp [hg]
    · simp [hg, ih]

/-! ## One call -/

section Call

variable {P : C → SerDef W C D} {order : (c : C) → List (Fin (P c).arity)} {catching : Bool} {depth : Nat}
  {s s' : Sys S W C D} {input : Input} {out : ExecOut} {f : Inst C D}

theorem order_nodup (h : IsOrder P order) (c : C) : (order c).Nodup :=
  (h c).nodup_iff.2 (List.nodup_finRange _)

theorem order_mem (h : IsOrder P order) (c : C) (i : Fin (P c).arity) : i ∈ order c :=
  (h c).mem_iff.2 (List.mem_finRange i)

theorem convertIn_all (h : IsOrder P order) {c : C} {slots : (P c).Slots} :
    convertIn ops ne (P c) args (order c) (P c).noSlots s = .ok (s', .ret slots) ↔
      ∃ r, Convs ops ne (P c) args r (order c) s s' ∧ slots = allSlots r := by
  rw [convertIn_ret (order_nodup h c)]
  constructor
  · rintro ⟨r, h1, h2⟩
    exact ⟨r, h1, funext fun j => by rw [h2 j, if_pos (order_mem h c j)]; rfl⟩
  · rintro ⟨r, h1, rfl⟩
    exact ⟨r, h1, fun j => by rw [if_pos (order_mem h c j)]; rfl⟩

/-- What `execute` makes of the end of an invocation. -/
def deliver (catching : Bool) (x : Sys S W C D × CallCtx × Option Exn) : Sys S W C D × ExecOut :=
  match (handle catching x.2.1 x.2.2).2 with
  | some e => (x.1, .error e)
  | none => (x.1, .ok { (handle catching x.2.1 x.2.2).1.result with input := (handle catching x.2.1 x.2.2).1.input })

theorem executeInputSer_selected {cmd : Command C D} (h : input.name ≠ [])
    (hf : ops.find s.reg input.name = .ok (some cmd))
    (hs : FirstOfArityS P input.arguments.length cmd.functors f) :
    executeInputSer P order ops catching ne depth s input =
      (invokeSer P order ops ne depth f s ⟨input, ExecResult.empty⟩ >>= fun x => .ok (deliver catching x)) := by
  simp only [executeInputSer, executeCtxSer, h, hf, selectSer_some.2 hs, if_false, Res.bind_ok]
  cases hi : invokeSer P order ops ne depth f s ⟨input, ExecResult.empty⟩ with
  | ok x =>
    simp only [Res.bind_ok, deliver]
    cases (handle catching x.2.1 x.2.2).2 <;> rfl
  | ub w => rfl
  | diverge => rfl

theorem deliver_exn (es : List CtxEvent) (x : Exn) (s' : Sys S W C D) :
    deliver catching (s', after ⟨input, ExecResult.empty⟩ es, some x) =
      (s', afterThrow catching (resultOf input es none) x) := by
  cases x <;> cases catching <;>
    simp [deliver, handle, afterThrow, resultOf, after, ExecResult.empty, CallCtx.reportError, caughtError, cstr]

theorem deliver_exn_new (x : Exn) (s' : Sys S W C D) :
    deliver catching (s', ⟨input, ExecResult.empty⟩, some x) =
      (s', afterThrow catching (resultOf input [] none) x) := by
  have := deliver_exn (catching := catching) (input := input) [] x s'
  rwa [after_nil] at this

theorem deliver_after (es : List CtxEvent) (s' : Sys S W C D) :
    deliver catching (s', after ⟨input, ExecResult.empty⟩ es, none) = (s', .ok (resultOf input es none)) := by
  simp [deliver, handle, resultOf, after, ExecResult.empty]

theorem hasErrors_after (es : List CtxEvent) :
    (after ⟨input, ExecResult.empty⟩ es).hasErrors = false ↔ errorsOf es = [] := by
  by_cases he : errorsOf es = [] <;> simp [CallCtx.hasErrors, after, ExecResult.empty, he]

/-- The calls of a function object, exactly. -/
theorem executeInputSer_iff (ho : IsOrder P order) {cmd : Command C D} (h : input.name ≠ [])
    (hf : ops.find s.reg input.name = .ok (some cmd))
    (hs : FirstOfArityS P input.arguments.length cmd.functors f) (hl : f.id ∉ s.freed) :
    executeInputSer P order ops catching ne depth s input = .ok (s', out) ↔
      CallGives ops ne catching depth f (P f.code) (order f.code) input s s' out := by
  rw [executeInputSer_selected h hf hs, Res.bind_eq_ok]
  simp only [invokeSer, if_neg hl, Res.ok.injEq]
  constructor
  · rintro ⟨x, h1, h2⟩
    obtain ⟨⟨s1, e⟩, hc, h1⟩ := Res.bind_eq_ok.1 h1
    cases e with
    | exn y =>
      simp only [Res.ok.injEq] at h1
      subst h1
      rw [deliver_exn_new] at h2
      cases h2
      exact .conversionThrows ((convertIn_exn (order_nodup ho _)).1 hc)
    | ret slots =>
      obtain ⟨r, hr, rfl⟩ := (convertIn_all ho).1 hc
      by_cases hm : messages r = []
      · obtain ⟨xs, hx⟩ := (messages_nil_iff r).1 hm
        have hno : SerDef.Slots.anyMissing (allSlots r) = false := by
          cases hb : SerDef.Slots.anyMissing (allSlots r) with
          | false => rfl
          | true => exact absurd hm ((anyMissing_iff r).1 hb)
        simp only [hno, takeValues_eq hx, Res.bind_ok, Bool.false_eq_true, if_false] at h1
        by_cases hfr : f.id ∈ s1.freed
        · simp [hfr] at h1
        simp only [hfr, if_false] at h1
        obtain ⟨⟨s2, c2, e⟩, hb, h1⟩ := Res.bind_eq_ok.1 h1
        obtain ⟨es, hrun, rfl⟩ := (run_new ..).1 hb
        cases e with
        | exn y =>
          simp only [finishCall, Res.ok.injEq] at h1
          subst h1
          rw [deliver_exn] at h2
          cases h2
          exact .throws hr hx hfr hrun
        | ret v =>
          simp only [finishCall] at h1
          cases hp : (P f.code).print with
          | none =>
            simp only [hp, Res.ok.injEq] at h1
            subst h1
            rw [deliver_after] at h2
            cases h2
            exact .void hr hx hfr hrun hp
          | some print =>
            simp only [hp] at h1
            obtain ⟨⟨s3, t⟩, ht, h1⟩ := Res.bind_eq_ok.1 h1
            cases t with
            | exn y =>
              simp only [Res.ok.injEq] at h1
              subst h1
              rw [deliver_exn] at h2
              cases h2
              exact .unprintable hr hx hfr hrun hp ht
            | ret t =>
              by_cases he : errorsOf es = []
              · simp only [(hasErrors_after es).2 he, if_true, Res.ok.injEq] at h1
                subst h1
                have : deliver catching (s3, ({ after ⟨input, ExecResult.empty⟩ es with
                    result := { (after ⟨input, ExecResult.empty⟩ es).result with returnValue := some t } } : CallCtx), none) =
                    (s3, .ok (resultOf input es (some t))) := by
                  simp [deliver, handle, resultOf, after, ExecResult.empty, he]
                rw [this] at h2
                cases h2
                exact .printed hr hx hfr hrun hp ht
              · have hh : (after ⟨input, ExecResult.empty⟩ es).hasErrors = true := by
                  cases hb : (after ⟨input, ExecResult.empty⟩ es).hasErrors with
                  | true => rfl
                  | false => exact absurd ((hasErrors_after es).1 hb) he
                simp only [hh, Bool.true_eq_false, if_false, Res.ok.injEq] at h1
                subst h1
                rw [deliver_after] at h2
                cases h2
                have : resultOf input es none = resultOf input es (some t) := by simp [resultOf, he]
                rw [this]
                exact .printed hr hx hfr hrun hp ht
      · have hyes := (anyMissing_iff r).2 hm
        simp only [hyes, if_true, Res.ok.injEq, reportAll_eq] at h1
        subst h1
        have : deliver catching (s1, (⟨input, { ExecResult.empty with errors := ExecResult.empty.errors ++ messages r }⟩ :
            CallCtx), none) = (s1, .ok ⟨input, messages r, none, []⟩) := by
          simp [deliver, handle, ExecResult.empty]
        rw [this] at h2
        cases h2
        exact .rejected hr hm
  · intro hg
    have hno : ∀ {r : Results (P f.code)} {xs}, AreValues r xs → SerDef.Slots.anyMissing (allSlots r) = false := by
      intro r xs hx
      cases hb : SerDef.Slots.anyMissing (allSlots r) with
      | false => rfl
      | true => exact absurd ((messages_nil_iff r).2 ⟨xs, hx⟩) ((anyMissing_iff r).1 hb)
    cases hg with
    | @conversionThrows _ x ht =>
      refine ⟨(s', ⟨input, ExecResult.empty⟩, some x), ?_, deliver_exn_new x s'⟩
      rw [(convertIn_exn (order_nodup ho _)).2 ht]
      rfl
    | @rejected _ r hr hm =>
      refine ⟨(s', ⟨input, { ExecResult.empty with errors := ExecResult.empty.errors ++ messages r }⟩, none), ?_, ?_⟩
      · rw [(convertIn_all ho).2 ⟨r, hr, rfl⟩]
        simp only [Res.bind_ok, (anyMissing_iff r).2 hm, if_true, reportAll_eq]
      · simp [deliver, handle, ExecResult.empty]
    | @throws r xs s1 es _ x hr hx hfr hrun =>
      refine ⟨(s', after ⟨input, ExecResult.empty⟩ es, some x), ?_, deliver_exn es x s'⟩
      rw [(convertIn_all ho).2 ⟨r, hr, rfl⟩]
      simp only [Res.bind_ok, hno hx, takeValues_eq hx, Bool.false_eq_true, if_false, hfr,
        (run_new ..).2 ⟨es, hrun, rfl⟩, finishCall]
    | @void r xs s1 es v _ hr hx hfr hrun hp =>
      refine ⟨(s', after ⟨input, ExecResult.empty⟩ es, none), ?_, deliver_after es s'⟩
      rw [(convertIn_all ho).2 ⟨r, hr, rfl⟩]
      simp only [Res.bind_ok, hno hx, takeValues_eq hx, Bool.false_eq_true, if_false, hfr,
        (run_new ..).2 ⟨es, hrun, rfl⟩, finishCall, hp]
    | @unprintable r xs s1 es v s2 print _ x hr hx hfr hrun hp ht =>
      refine ⟨(s', after ⟨input, ExecResult.empty⟩ es, some x), ?_, deliver_exn es x s'⟩
      rw [(convertIn_all ho).2 ⟨r, hr, rfl⟩]
      simp only [Res.bind_ok, hno hx, takeValues_eq hx, Bool.false_eq_true, if_false, hfr,
        (run_new ..).2 ⟨es, hrun, rfl⟩, finishCall, hp, ht]
    | @printed r xs s1 es v s2 print _ t hr hx hfr hrun hp ht =>
      by_cases he : errorsOf es = []
      · refine ⟨(s', { after ⟨input, ExecResult.empty⟩ es with
          result := { (after ⟨input, ExecResult.empty⟩ es).result with returnValue := some t } }, none), ?_, ?_⟩
        · rw [(convertIn_all ho).2 ⟨r, hr, rfl⟩]
          simp only [Res.bind_ok, hno hx, takeValues_eq hx, Bool.false_eq_true, if_false, hfr,
            (run_new ..).2 ⟨es, hrun, rfl⟩, finishCall, hp, ht, (hasErrors_after es).2 he, if_true]
        · simp [deliver, handle, resultOf, after, ExecResult.empty, he]
      · have hh : (after ⟨input, ExecResult.empty⟩ es).hasErrors = true := by
          cases hb : (after ⟨input, ExecResult.empty⟩ es).hasErrors with
          | true => rfl
          | false => exact absurd ((hasErrors_after es).1 hb) he
        refine ⟨(s', after ⟨input, ExecResult.empty⟩ es, none), ?_, ?_⟩
        · rw [(convertIn_all ho).2 ⟨r, hr, rfl⟩]
          simp only [Res.bind_ok, hno hx, takeValues_eq hx, Bool.false_eq_true, if_false, hfr,
            (run_new ..).2 ⟨es, hrun, rfl⟩, finishCall, hp, ht, hh, Bool.true_eq_false]
        · rw [deliver_after]
          simp [resultOf, he]

/-- All the ways in which executing a command can give a result. -/
theorem executeInputSer_cases (ho : IsOrder P order)
    (h : executeInputSer P order ops catching ne depth s input = .ok (s', out)) :
    (s' = s ∧ ∃ m, out = .ok ⟨input, [m], none, []⟩) ∨
    (input.name ≠ [] ∧ ∃ cmd f, ops.find s.reg input.name = .ok (some cmd) ∧
      FirstOfArityS P input.arguments.length cmd.functors f ∧ f.id ∉ s.freed ∧
      CallGives ops ne catching depth f (P f.code) (order f.code) input s s' out) := by
  by_cases hn : input.name = []
  · simp only [executeInputSer, executeCtxSer, hn, if_true, Res.bind_ok, CallCtx.reportError, ExecResult.empty,
      List.nil_append, Res.ok.injEq, Prod.mk.injEq] at h
    exact .inl ⟨h.1.symm, _, h.2.symm⟩
  cases hf : ops.find s.reg input.name with
  | ub w => simp [executeInputSer, executeCtxSer, hn, hf] at h
  | diverge => simp [executeInputSer, executeCtxSer, hn, hf] at h
  | ok o =>
    cases o with
    | none =>
      simp only [executeInputSer, executeCtxSer, hn, hf, if_false, Res.bind_ok, CallCtx.reportError, ExecResult.empty,
        List.nil_append, Res.ok.injEq, Prod.mk.injEq] at h
      exact .inl ⟨h.1.symm, _, h.2.symm⟩
    | some cmd =>
      cases hs : selectSer P input.arguments.length cmd.functors with
      | none =>
        simp only [executeInputSer, executeCtxSer, hn, hf, hs, if_false, Res.bind_ok, CallCtx.reportError, ExecResult.empty,
          List.nil_append, Res.ok.injEq, Prod.mk.injEq] at h
        exact .inl ⟨h.1.symm, _, h.2.symm⟩
      | some f =>
        have hs := selectSer_some.1 hs
        have hl : f.id ∉ s.freed := by
          intro hl
          rw [executeInputSer_selected hn hf hs] at h
          simp [invokeSer, hl] at h
        exact .inr ⟨hn, cmd, f, rfl, hs, hl, (executeInputSer_iff ho hn hf hs hl).1 h⟩

end Call

section Nested

variable {P : C → SerDef W C D} {order : (c : C) → List (Fin (P c).arity)} {catching : Bool} {fuel depth : Nat}
  {s s' : Sys S W C D} {input : Input} {out : ExecOut} {req : Request}

theorem execSer_means (h : Means s.lexer req input) :
    (nestedSer P order ops catching (fuel + 1) depth).exec s req =
      executeInputSer P order ops catching (nestedSer P order ops catching fuel (depth + 1)) depth s input := by
  cases req with
  | line t =>
    obtain ⟨l, h1, h2⟩ := h
    simp only [Nested.exec, nestedSer, executeLineSer, h1, h2, Res.bind_ok]
  | input i =>
    cases h
    rfl

theorem execSer_ok (h : (nestedSer P order ops catching fuel depth).exec s req = .ok (s', out)) :
    ∃ fuel', fuel = fuel' + 1 ∧
      ((∃ m, s' = s ∧ out = .ok ⟨Input.empty, [m], none, []⟩) ∨
        ∃ i, Means s.lexer req i ∧
          executeInputSer P order ops catching (nestedSer P order ops catching fuel' (depth + 1)) depth s i =
            .ok (s', out)) := by
  cases fuel with
  | zero => cases req <;> simp [nestedSer, Nested.exec] at h
  | succ fuel =>
    refine ⟨fuel, rfl, ?_⟩
    cases req with
    | line t =>
      simp only [Nested.exec, nestedSer, executeLineSer] at h
      cases hl : s.lexer with
      | none => simp [hl] at h
      | some l =>
        simp only [hl] at h
        obtain ⟨o, h1, h2⟩ := Res.bind_eq_ok.1 h
        cases o with
        | error m =>
          simp only [Res.ok.injEq, Prod.mk.injEq] at h2
          exact .inl ⟨_, h2.1.symm, h2.2.symm⟩
        | ok i => exact .inr ⟨i, ⟨l, rfl, h1⟩, h2⟩
    | input i => exact .inr ⟨i, rfl, h⟩

/-! ## Calls made -/

theorem ser_calls {R : Type} (hne : ∀ s req s' out, ne.exec s req = .ok (s', out) → CallsFrom depth s s')
    (p : Ser W C D R) : ∀ {s s' : Sys S W C D} {e : End R}, p.run ops ne s = .ok (s', e) → CallsFrom depth s s' := by
  induction p with
  | ret r => intro s s' e h; simp only [Ser.run, Res.ok.injEq, Prod.mk.injEq] at h; exact h.1 ▸ .refl ..
  | throw x => intro s s' e h; simp only [Ser.run, Res.ok.injEq, Prod.mk.injEq] at h; exact h.1 ▸ .refl ..
  | ub w => intro s s' e h; simp [Ser.run] at h
  | diverge => intro s s' e h; simp [Ser.run] at h
  | get k ih => intro s s' e h; exact ih _ h
  | set w k ih => intro s s' e h; exact .of_eq (s2 := { s with user := w }) rfl (ih h)
  | add n fs k ih =>
    intro s s' e h
    obtain ⟨s1, h1, h2⟩ := Res.bind_eq_ok.1 h
    exact .of_eq (bindingsAdd_calls h1).symm (ih h2)
  | remove n k ih =>
    intro s s' e h
    obtain ⟨s1, h1, h2⟩ := Res.bind_eq_ok.1 h
    exact .of_eq (bindingsRemove_calls h1).symm (ih h2)
  | clear k ih => intro s s' e h; exact .of_eq (s2 := bindingsClear ops s) rfl (ih h)
  | execLine t k ih =>
    intro s s' e h
    obtain ⟨⟨s1, o⟩, h1, h2⟩ := Res.bind_eq_ok.1 h
    exact (hne _ (.line _) _ _ h1).trans (ih _ h2)
  | execInput t k ih =>
    intro s s' e h
    obtain ⟨⟨s1, o⟩, h1, h2⟩ := Res.bind_eq_ok.1 h
    exact (hne _ (.input _) _ _ h1).trans (ih _ h2)

theorem convs_calls (hne : ∀ s req s' out, ne.exec s req = .ok (s', out) → CallsFrom depth s s')
    {r : Results d} {is : List (Fin d.arity)} (h : Convs ops ne d args r is s s') : CallsFrom depth s s' := by
  induction h with
  | nil => exact .refl ..
  | cons _ h2 _ ih => exact (ser_calls hne _ h2).trans ih

/-- The calls made by one call: those of the conversions, the call itself, and those of the function and of the
conversion of its result. -/
theorem callGives_calls {f : Inst C D} {is : List (Fin d.arity)}
    (hne : ∀ s req s' out, ne.exec s req = .ok (s', out) → CallsFrom (depth + 1) s s')
    (h : CallGives ops ne catching depth f d is input s s' out) :
    CallsFrom (depth + 1) s s' ∨
      ∃ before deeper r xs s1, s'.calls = s.calls ++ before ++ (depth, f.id) :: deeper ∧
        (∀ c ∈ before, depth < c.1) ∧ (∀ c ∈ deeper, depth < c.1) ∧
        Convs ops ne d input.arguments r is s s1 ∧ AreValues r xs := by
  have key : ∀ {s1 s2 : Sys S W C D} {r : Results d} {xs}, Convs ops ne d input.arguments r is s s1 → AreValues r xs →
      CallsFrom (depth + 1) { s1 with calls := s1.calls ++ [(depth, f.id)] } s2 →
      ∃ before deeper r xs s1, s2.calls = s.calls ++ before ++ (depth, f.id) :: deeper ∧
        (∀ c ∈ before, depth < c.1) ∧ (∀ c ∈ deeper, depth < c.1) ∧
        Convs ops ne d input.arguments r is s s1 ∧ AreValues r xs := by
    intro s1 s2 r xs hr hx hc
    obtain ⟨n1, a1, b1⟩ := convs_calls hne hr
    obtain ⟨n2, a2, b2⟩ := hc
    exact ⟨n1, n2, r, xs, s1, by rw [a2]; simp [a1], b1, b2, hr, hx⟩
  cases h with
  | conversionThrows h =>
    obtain ⟨r, pre, i, post, s1, a, _, h2, _, h4⟩ := h
    exact .inl ((convs_calls hne h2).trans (ser_calls hne _ h4))
  | rejected hr _ => exact .inl (convs_calls hne hr)
  | throws hr hx _ hrun => exact .inr (key hr hx (runs_calls hne hrun))
  | void hr hx _ hrun _ => exact .inr (key hr hx (runs_calls hne hrun))
  | unprintable hr hx _ hrun _ ht => exact .inr (key hr hx ((runs_calls hne hrun).trans (ser_calls hne _ ht)))
  | printed hr hx _ hrun _ ht => exact .inr (key hr hx ((runs_calls hne hrun).trans (ser_calls hne _ ht)))

theorem execSer_calls (ho : IsOrder P order) (fuel : Nat) : ∀ (depth : Nat) (s : Sys S W C D) (req : Request)
    (s' : Sys S W C D) (out : ExecOut),
    (nestedSer P order ops catching fuel depth).exec s req = .ok (s', out) → CallsFrom depth s s' := by
  induction fuel with
  | zero =>
    intro depth s req s' out h
    obtain ⟨_, h, _⟩ := execSer_ok h
    omega
  | succ fuel ih =>
    intro depth s req s' out h
    obtain ⟨f', hf, h⟩ := execSer_ok h
    cases hf
    rcases h with ⟨_, rfl, _⟩ | ⟨i, _, h⟩
    · exact .refl ..
    · rcases executeInputSer_cases ho h with ⟨rfl, _⟩ | ⟨_, cmd, f, _, _, _, h⟩
      · exact .refl ..
      · rcases callGives_calls (ih (depth + 1)) h with h | ⟨before, deeper, _, _, _, h1, h2, h3, _⟩
        · exact h.weaken (Nat.le_succ _)
        · refine ⟨before ++ (depth, f.id) :: deeper, by simp [h1], ?_⟩
          intro c hc
          rcases List.mem_append.1 hc with hc | hc
          · exact Nat.le_of_lt (h2 c hc)
          · rcases List.mem_cons.1 hc with rfl | hc
            · exact Nat.le_refl _
            · exact Nat.le_of_lt (h3 c hc)

end Nested

end Coil
