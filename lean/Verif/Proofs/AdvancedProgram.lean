import Verif.Spec.AdvancedProgram
import Verif.Proofs.Angle
import Verif.Proofs.EncapsulationStep
import Verif.Proofs.Growing
import Verif.Proofs.NamedProgram
import Verif.Proofs.PropertyProgram

/-!
# The program of examples/advanced: lemmas
-/

namespace Coil
open Spec Vw

/-! ## From growing conversations to accounts -/

section
variable {W C D H : Type} {P : C → FunctorDef W C D} {catching : Bool} {told : Account H} {keeps : Standing W C D → H → Prop}

/-- What has to be shown so that a program whose commands make commands gives an account. -/
structure GrowingAccounts (P : C → FunctorDef W C D) (told : Account H) (keeps : Standing W C D → H → Prop) : Prop where
  /-- A command that is told is known, and its arguments convert. -/
  known {S : Standing W C D} {h h' : H} {i : Input} {o : Outcome} : keeps S h → told h i h' o → i.name ≠ [] ∧ ∃ fs f, S.table.functions i.name = some fs ∧
    FirstTaking P i.arguments.length fs f ∧ conversionErrors (P f.1).params i.arguments = []
  /-- What a function does is told. -/
  does {S S' : Standing W C D} {h : H} {i : Input} {fs : List (C × D)} {f : C × D} {xs : Args (P f.1).params} {es : List CtxEvent} {e : End (P f.1).R} :
    keeps S h → i.name ≠ [] → S.table.functions i.name = some fs → FirstTaking P i.arguments.length fs f → ConvertTo (P f.1).params i.arguments xs →
    Recounts f.2 i.namedArguments i.name [] ((P f.1).body xs) true S es e S' → ∃ h', keeps S' h' ∧ told h i h' (outcomeOf (P f.1).print es e)

theorem GrowingAccounts.step (ht : GrowingAccounts P told keeps) {S S' : Standing W C D} {h : H} (hk : keeps S h) {i : Input} {out : ExecOut}
    (hr : Responds P catching S i S' out) : ∃ h', keeps S' h' ∧ Result told catching h i h' out := by
  have no : ∀ {es : List Bytes}, es ≠ [] → (¬ ∃ h1 o, told h i h1 o) → Result told catching h i h (.ok ⟨i, es, none, []⟩) := fun hes hno =>
    .inr ⟨hno, rfl, _, rfl, rfl, rfl, hes⟩
  cases hr with
  | noName h0 => exact ⟨h, hk, no (by simp) fun ⟨_, _, h1⟩ => (ht.known hk h1).1 h0⟩
  | unknown _ h0 =>
    refine ⟨h, hk, no (by simp) ?_⟩
    rintro ⟨_, _, h1⟩
    obtain ⟨_, fs, f, g, _⟩ := ht.known hk h1
    rw [h0] at g
    cases g
  | count _ hfs hno =>
    refine ⟨h, hk, no (by simp) ?_⟩
    rintro ⟨_, _, h1⟩
    obtain ⟨_, fs, f, g, g2, _⟩ := ht.known hk h1
    rw [hfs] at g
    cases g
    exact hno f (firstTaking_member g2) (firstTaking_length g2)
  | mismatch _ hfs hf _ he =>
    refine ⟨h, hk, no he ?_⟩
    rintro ⟨_, _, h1⟩
    obtain ⟨_, fs, f, g, g2, g3⟩ := ht.known hk h1
    rw [hfs] at g
    cases g
    cases firstTaking_unique g2 hf
    exact he g3
  | returned hn hfs hf hx hs =>
    obtain ⟨h', g3, g4⟩ := ht.does hk hn hfs hf hx hs
    exact ⟨h', g3, .inl ⟨_, g4, _, rfl, rfl, rfl, rfl⟩⟩
  | @thrown fs f xs es e _ hn hfs hf hx hs =>
    obtain ⟨h', g3, g4⟩ := ht.does hk hn hfs hf hx hs
    refine ⟨h', g3, .inl ⟨_, g4, ?_⟩⟩
    cases catching
    · show Outcome.Shows false _ _
      unfold Outcome.Shows
      rfl
    · exact ⟨_, rfl, rfl, rfl, rfl⟩

theorem GrowingAccounts.annals (ht : GrowingAccounts P told keeps) {d : Delims} {S S' : Standing W C D} {reqs : List Request} {outs : List ExecOut}
    (h : Growth P catching d S reqs outs S') : ∀ {h : H}, keeps S h → ∃ h', Annals told catching d h reqs outs h' ∧ keeps S' h' := by
  induction h with
  | nil => exact fun hk => ⟨_, .nil, hk⟩
  | wrong hm _ ih =>
    intro h hk
    obtain ⟨h', g1, g2⟩ := ih hk
    exact ⟨h', .wrong hm.2 g1, g2⟩
  | line hi hr _ ih =>
    intro h hk
    obtain ⟨h1, g1, g2⟩ := ht.step hk hr
    obtain ⟨h', g3, g4⟩ := ih g1
    exact ⟨h', .line hi.2 g2 g3, g4⟩
  | input hr _ ih =>
    intro h hk
    obtain ⟨h1, g1, g2⟩ := ht.step hk hr
    obtain ⟨h', g3, g4⟩ := ih g1
    exact ⟨h', .input g2 g3, g4⟩

/-! ## What bodies do -/

variable {R : Type} {x : D} {l : List Named} {me : Bytes} {past es : List CtxEvent} {here : Bool} {S S' : Standing W C D} {e : End R}

theorem recounts_ret {r : R} (h : Recounts x l me past (.ret r : Prog W C D R) here S es e S') : es = [] ∧ e = .ret r ∧ S' = S := by
  cases h; exact ⟨rfl, rfl, rfl⟩

theorem recounts_get {k : W → Prog W C D R} (h : Recounts x l me past (.get k) here S es e S') : Recounts x l me past (k S.user) here S es e S' := by
  cases h; assumption

theorem recounts_set {w : W} {k : Prog W C D R} (h : Recounts x l me past (.set w k) here S es e S') :
    Recounts x l me past k here ⟨S.table, w⟩ es e S' := by
  cases h; assumption

theorem recounts_captured {k : D → Prog W C D R} (h : Recounts x l me past (.captured k) here S es e S') :
    here = true ∧ Recounts x l me past (k x) here S es e S' := by
  cases h; exact ⟨rfl, by assumption⟩

theorem recounts_add {n : Bytes} {fs : List (C × D)} {k : Prog W C D R} (h : Recounts x l me past (.add n fs k) here S es e S') :
    Recounts x l me past k (here && decide (n ≠ me)) (S.more n fs) es e S' := by
  cases h; assumption

theorem recounts_addable {n : Bytes} {fs : List (C × D)} {k : Prog W C D R} (hn : me ≠ n) (h : Recounts x l me past k true (S.more n fs) es e S') :
    Recounts x l me past (.captured fun _ => .add n fs k) true S es e S' := by
  refine .captured (.add ?_)
  have : decide (n ≠ me) = true := decide_eq_true fun h => hn h.symm
  rwa [this]

theorem recounts_error {t : Bytes} {k : Prog W C D R} (h : Recounts x l me past (.reportError t k) here S es e S') :
    ∃ es', es = .error t :: es' ∧ Recounts x l me (past ++ [.error t]) k here S es' e S' := by
  cases h; exact ⟨_, rfl, by assumption⟩

theorem recounts_logline {t : Bytes} {k : Prog W C D R} (h : Recounts x l me past (.logline t k) here S es e S') :
    ∃ es', es = .logline t :: es' ∧ Recounts x l me (past ++ [.logline t]) k here S es' e S' := by
  cases h; exact ⟨_, rfl, by assumption⟩

theorem recounts_ub {u : UB} (h : Recounts x l me past (.ub u : Prog W C D R) here S es e S') : False := by cases h

theorem recounts_lines {A : Type} {r : R} {g : A → Bytes} {as : List A} : Recounts x l me past (as.foldr (fun a k => Prog.logline (g a) k) (.ret r)) here S es e S' ↔
    es = as.map (fun a => .logline (g a)) ∧ e = .ret r ∧ S' = S := by
  induction as generalizing past es with
  | nil =>
    constructor
    · exact recounts_ret
    · rintro ⟨rfl, rfl, rfl⟩; exact .ret
  | cons a as ih =>
    constructor
    · intro h
      obtain ⟨es', rfl, h1⟩ := recounts_logline h
      obtain ⟨rfl, rfl, rfl⟩ := ih.1 h1
      exact ⟨rfl, rfl, rfl⟩
    · rintro ⟨rfl, rfl, rfl⟩
      exact .logline (ih.2 ⟨rfl, rfl, rfl⟩)

end

/-! ## The entities -/

/-- What is known of an entity. -/
def Spec.AdvancedHistory.entity (h : AdvancedHistory) (id : Bytes) : Entity := ⟨id, h.name id, h.payload id⟩

theorem lookup_people (h : AdvancedHistory) (t : Bytes) (ids : List Bytes) :
    Vw.lookup t (ids.map h.entity) = if t ∈ ids then some (h.entity t) else none := by
  induction ids with
  | nil => rfl
  | cons id ids ih =>
    simp only [List.map_cons, Vw.lookup, ih, List.mem_cons]
    by_cases e : id = t
    · subst e; simp [AdvancedHistory.entity]
    · have : ¬ t = id := fun h => e h.symm
      rw [if_neg (show ¬ (h.entity id).id = t from e)]
      simp [this]

theorem change_same {h h' : AdvancedHistory} {t : Bytes} {f : Entity → Entity} (hf : f (h.entity t) = h'.entity t) (ho : ∀ id, id ≠ t → h.entity id = h'.entity id) :
    ∀ {ids : List Bytes}, ids.Nodup → change t f (ids.map h.entity) = ids.map h'.entity
  | [], _ => rfl
  | id :: ids, hn => by
    obtain ⟨h1, h2⟩ := List.nodup_cons.1 hn
    simp only [List.map_cons, change]
    by_cases e : id = t
    · subst e
      rw [if_pos (show (h.entity id).id = id from rfl), hf]
      congr 1
      apply List.map_congr_left
      intro a ha
      exact ho a fun h => h1 (h ▸ ha)
    · rw [if_neg (show ¬ (h.entity id).id = t from e), change_same hf ho h2, ho id e]

theorem people_nodup : people.Nodup := by decide +kernel

theorem people_plain {id : Bytes} (h : id ∈ people) : cstr id = id := by
  simp only [people, List.mem_cons, List.not_mem_nil, or_false] at h
  rcases h with rfl | rfl | rfl <;> decide +kernel

theorem change_name (h : AdvancedHistory) (id t : Bytes) :
    change id (Field.name.put t) (people.map h.entity) = people.map ({ h with name := instead h.name id t } : AdvancedHistory).entity := by
  refine change_same ?_ (fun a ha => ?_) people_nodup
  · simp [AdvancedHistory.entity, Field.put, instead]
  · simp [AdvancedHistory.entity, instead, ha]

theorem change_payload (h : AdvancedHistory) (id t : Bytes) :
    change id (Field.payload.put t) (people.map h.entity) = people.map ({ h with payload := instead h.payload id t } : AdvancedHistory).entity := by
  refine change_same ?_ (fun a ha => ?_) people_nodup
  · simp [AdvancedHistory.entity, Field.put, instead]
  · simp [AdvancedHistory.entity, instead, ha]

/-! ## The angle -/

theorem angleParts_split {t : Bytes} (h : t ≠ []) : AngleParts t (angleSplit t).1 (angleSplit t).2 := by
  obtain ⟨a, c, rfl⟩ : ∃ a c, t = a ++ [c] := ⟨t.dropLast, t.getLast h, (List.dropLast_append_getLast h).symm⟩
  by_cases hr : c = 114
  · subst hr
    rw [angleSplit_r]
    exact .radians
  by_cases hd : c = 100
  · subst hd
    rw [angleSplit_d]
    exact .degrees
  rw [angleSplit_none (by simpa using hr) (by simpa using hd)]
  refine .plain h fun b => ⟨fun e => ?_, fun e => ?_⟩
  · exact hr (by simpa using congrArg List.getLast? (show a ++ [c] = b ++ [114] from e))
  · exact hd (by simpa using congrArg List.getLast? (show a ++ [c] = b ++ [100] from e))

/-! ## The functions -/

/-- The functions of a command. -/
def senseFunctions : Sense → List (AdvancedCode × Bytes)
  | .rename => [(.rename, [])]
  | .create => [(.create, [])]
  | .list => [(.list, [])]
  | .direction => [(.angle, []), (.setAngle, [])]
  | .whole id => [(.whole, id), (.setWhole, id)]
  | .field f id => [(.field f, id), (.setField f, id)]

/-- The state has what the history tells. -/
def AdvKeeps (S : Standing AdvancedWorld AdvancedCode Bytes) (h : AdvancedHistory) : Prop :=
  S.user = ⟨people.map h.entity, h.angle⟩ ∧ ∀ n, S.table.functions n = (h.sense n).map senseFunctions

variable {tiny : Nat → Nat → Bool} {nan : Fl → Fl → Bool} {S S' : Standing AdvancedWorld AdvancedCode Bytes} {h : AdvancedHistory}

theorem AdvKeeps.sense (hk : AdvKeeps S h) {n : Bytes} {fs : List (AdvancedCode × Bytes)} (hf : S.table.functions n = some fs) :
    ∃ s, h.sense n = some s ∧ fs = senseFunctions s := by
  have := hk.2 n
  rw [hf] at this
  cases hs : h.sense n with
  | none => rw [hs] at this; cases this
  | some s => rw [hs] at this; cases this; exact ⟨s, rfl, rfl⟩

theorem AdvKeeps.functions (hk : AdvKeeps S h) {n : Bytes} {s : Sense} (hs : h.sense n = some s) :
    S.table.functions n = some (senseFunctions s) := by rw [hk.2, hs]; rfl

theorem AdvKeeps.found (hk : AdvKeeps S h) (t : Bytes) : Vw.lookup t S.user.entities = if t ∈ people then some (h.entity t) else none := by
  rw [hk.1]; exact lookup_people h t people

theorem member_recounts (hk : AdvKeeps S h) {f : Field} {id : Bytes} {l : List Named} {me : Bytes} {past es : List CtxEvent} {here : Bool}
    {e : End Bytes} (hs : Recounts id l me past (memberOf f) here S es e S') : id ∈ people ∧ es = [] ∧ e = .ret (h.fact f id) ∧ S' = S := by
  have hs := (recounts_captured hs).2
  have hs := recounts_get hs
  rw [hk.found] at hs
  by_cases hc : id ∈ people
  · rw [if_pos hc] at hs
    obtain ⟨rfl, rfl, rfl⟩ := recounts_ret hs
    refine ⟨hc, rfl, ?_, rfl⟩
    cases f <;> rfl
  · rw [if_neg hc] at hs
    exact (recounts_ub hs).elim

theorem recounts_member (hk : AdvKeeps S h) {f : Field} {id : Bytes} (hc : id ∈ people) {l : List Named} {me : Bytes} {past : List CtxEvent} :
    Recounts id l me past (memberOf f) true S [] (.ret (h.fact f id)) S := by
  refine .captured (.get ?_)
  dsimp only
  rw [hk.found, if_pos hc]
  cases f <;> exact .ret

theorem recounts_found (hk : AdvKeeps S h) {id : Bytes} (hc : id ∈ people) {R : Type} {k : Bytes → Option Entity → Prog AdvancedWorld AdvancedCode Bytes R}
    {l : List Named} {me : Bytes} {past es : List CtxEvent} {e : End R} (hs : Recounts id l me past (k id (some (h.entity id))) true S es e S') :
    Recounts id l me past (withFound k) true S es e S' := by
  refine .captured (.get ?_)
  rwa [hk.found, if_pos hc]

theorem AdvKeeps.variables (hk : AdvKeeps S h) (v id : Bytes) :
    AdvKeeps ((((S.more v [(.whole, id), (.setWhole, id)]).more (v ++ lit ".id") [(.field .id, id), (.setField .id, id)]).more (v ++ lit ".name")
      [(.field .name, id), (.setField .name, id)]).more (v ++ lit ".payload") [(.field .payload, id), (.setField .payload, id)]) (h.variables v id) := by
  refine ⟨hk.1, fun n => ?_⟩
  simp only [Standing.more, functions_more, AdvancedHistory.variables, instead]
  rw [hk.2]
  split
  · rfl
  split
  · rfl
  split
  · rfl
  split <;> rfl

theorem angleSet_recounts {b : Bytes} {rad : Bool} {x : Bytes} {l : List Named} {me : Bytes} {past es : List CtxEvent} {here : Bool} {e : End Bytes}
    (hs : Recounts x l me past (angleSet tiny nan AdvancedWorld.angleAt b rad) here S es e S') :
    (∃ m, (singleConv tiny).fromString ⟨[b]⟩ = .ok (.error m) ∧ es = [.error m] ∧ e = .ret (angleText S.user.angle) ∧ S' = S) ∨
    ∃ y, ReadsFloat tiny b y ∧ es = [] ∧ e = .ret (angleText (if rad then Fl.mul .single nan y (degreesPerRadian nan) else y)) ∧
      S' = ⟨S.table, { S.user with angle := if rad then Fl.mul .single nan y (degreesPerRadian nan) else y }⟩ := by
  unfold angleSet at hs
  cases hb : (singleConv tiny).fromString ⟨[b]⟩ with
  | ub => rw [hb] at hs; exact (recounts_ub hs).elim
  | diverge => rw [hb] at hs; cases hs
  | ok r =>
    rw [hb] at hs
    cases r with
    | error m =>
      obtain ⟨_, he, hs'⟩ := recounts_error hs
      subst he
      have hs := hs'
      clear hs'
      have hs := recounts_get hs
      obtain ⟨rfl, rfl, rfl⟩ := recounts_ret hs
      exact .inl ⟨m, rfl, rfl, rfl, rfl⟩
    | ok y =>
      have hs := recounts_get hs
      have hs := recounts_set hs
      have hs := recounts_get hs
      obtain ⟨rfl, rfl, rfl⟩ := recounts_ret hs
      exact .inr ⟨y, hb, rfl, rfl, rfl⟩

theorem recounts_angleSet (b : Bytes) (rad : Bool) (x : Bytes) (l : List Named) (me : Bytes) (past : List CtxEvent) (here : Bool)
    (S : Standing AdvancedWorld AdvancedCode Bytes) :
    ∃ es e S', Recounts x l me past (angleSet tiny nan AdvancedWorld.angleAt b rad) here S es e S' := by
  obtain ⟨r, hr⟩ := single_defined (tiny := tiny) ⟨[b]⟩
  unfold angleSet
  rw [hr]
  cases r with
  | error m => exact ⟨_, _, _, .reportError (.get .ret)⟩
  | ok y => exact ⟨_, _, _, .get (.set (.get .ret))⟩

theorem advanced_growing : AllGrowing (advancedFunctions tiny nan) := by
  have mem : ∀ f, Growing (memberOf f) := fun f => .captured fun id => .get fun w => by
    dsimp only
    cases Vw.lookup id w.entities
    · exact .ub
    · exact .ret
  intro c xs
  cases c with
  | rename =>
    refine .captured fun _ => .get fun w => ?_
    dsimp only
    split
    · exact .reportError .ret
    · exact .set .ret
  | create => exact .captured fun _ => .add (.captured fun _ => .add (.captured fun _ => .add (.captured fun _ => .add .ret)))
  | list =>
    refine .logline (.logline (.captured fun _ => .get fun w => ?_))
    generalize w.entities = l
    induction l with
    | nil => exact .ret
    | cons e l ih => exact .logline ih
  | angle => exact .get fun _ => .ret
  | setAngle =>
    show Growing (if xs.1 = [] then _ else angleSet _ _ _ _ _)
    split
    · exact .reportError (.get fun _ => .ret)
    · unfold angleSet
      cases (singleConv tiny).fromString ⟨[(angleSplit xs.1).1]⟩ with
      | ub => exact .ub
      | diverge => exact .diverge
      | ok r =>
        cases r with
        | error => exact .reportError (.get fun _ => .ret)
        | ok => exact .get fun _ => .set (.get fun _ => .ret)
  | whole => exact .captured fun _ => .get fun _ => .ret
  | setWhole => exact .reportError (.captured fun _ => .get fun _ => .ret)
  | field f => exact mem f
  | setField f =>
    cases f with
    | id => exact .reportError (mem .id)
    | name | payload =>
      refine .captured fun id => .get fun w => ?_
      dsimp only
      split
      · exact .ub
      · exact .get fun _ => .set (mem _)

theorem advanced_does {i : Input} (hk : AdvKeeps S h) {fs : List (AdvancedCode × Bytes)} {f : AdvancedCode × Bytes}
    {xs : Args (advancedFunctions tiny nan f.1).params} {es : List CtxEvent} {e : End (advancedFunctions tiny nan f.1).R} (hn : i.name ≠ [])
    (hfs : S.table.functions i.name = some fs) (hf : FirstTaking (advancedFunctions tiny nan) i.arguments.length fs f)
    (hx : ConvertTo (advancedFunctions tiny nan f.1).params i.arguments xs)
    (hs : Recounts f.2 i.namedArguments i.name [] ((advancedFunctions tiny nan f.1).body xs) true S es e S') :
    ∃ h', AdvKeeps S' h' ∧ AdvancedTold tiny nan h i h' (outcomeOf (advancedFunctions tiny nan f.1).print es e) := by
  obtain ⟨s, hse, rfl⟩ := hk.sense hfs
  have hm := firstTaking_member hf
  obtain ⟨name, args, named⟩ := i
  dsimp only at hn hse hx hs
  have means : h.Means name s := ⟨hn, hse⟩
  clear hf hfs
  cases s with
  | rename =>
    have : f = (.rename, []) := by simpa [senseFunctions] using hm
    subst this
    obtain ⟨id, t, ⟨⟩⟩ := xs
    match args, hx with
    | [a, b], hx =>
      have ha := string_reads.1 hx.1
      have hb := string_reads.1 hx.2.1
      subst ha hb
      have hs := recounts_get (recounts_captured hs).2
      rw [hk.found] at hs
      by_cases hc : id ∈ people
      · rw [if_pos hc] at hs
        have hs := recounts_set hs
        obtain ⟨rfl, rfl, rfl⟩ := recounts_ret hs
        refine ⟨{ h with name := instead h.name id t }, ⟨?_, hk.2⟩, .rename means rfl hc⟩
        dsimp only
        rw [hk.1]
        dsimp only
        rw [change_name]
      · rw [if_neg hc] at hs
        obtain ⟨_, he, hs'⟩ := recounts_error hs
        subst he
        have hs := hs'
        clear hs'
        obtain ⟨rfl, rfl, rfl⟩ := recounts_ret hs
        exact ⟨h, hk, .stranger means rfl hc⟩
  | create =>
    have : f = (.create, []) := by simpa [senseFunctions] using hm
    subst this
    obtain ⟨v, id, ⟨⟩⟩ := xs
    match args, hx with
    | [a, b], hx =>
      have ha := string_reads.1 hx.1
      have hb := string_reads.1 hx.2.1
      subst ha hb
      have hs := recounts_add (recounts_captured hs).2
      obtain ⟨_, hs⟩ := recounts_captured hs
      have hs := recounts_add hs
      obtain ⟨_, hs⟩ := recounts_captured hs
      have hs := recounts_add hs
      obtain ⟨h3, hs⟩ := recounts_captured hs
      have hs := recounts_add hs
      obtain ⟨rfl, rfl, rfl⟩ := recounts_ret hs
      refine ⟨_, hk.variables v id, .create means rfl ?_⟩
      simp only [Bool.and_eq_true, decide_eq_true_eq, true_and] at h3
      simp only [List.mem_cons, List.not_mem_nil, or_false, not_or]
      exact ⟨fun h => h3.1.1 h.symm, fun h => h3.1.2 h.symm, fun h => h3.2 h.symm⟩
  | list =>
    have : f = (.list, []) := by simpa [senseFunctions] using hm
    subst this
    match args, hx with
    | [], hx =>
      obtain ⟨_, he, hs'⟩ := recounts_logline hs
      subst he
      have hs := hs'
      clear hs'
      obtain ⟨_, he, hs'⟩ := recounts_logline hs
      subst he
      have hs := hs'
      clear hs'
      have hs := recounts_get (recounts_captured hs).2
      obtain ⟨rfl, rfl, rfl⟩ := recounts_lines.1 hs
      refine ⟨h, hk, ?_⟩
      have key := AdvancedTold.list (tiny := tiny) (nan := nan) (i := ⟨name, [], named⟩) means rfl
      have e1 : S'.user.entities = people.map h.entity := by rw [hk.1]
      have e2 : outcomeOf (R := Unit) none (.logline (lit "ID\tName\tPayload") :: .logline (lit "--\t----\t-------") ::
          S'.user.entities.map (fun a => CtxEvent.logline (entityLine a))) (.ret ()) = .good none h.listing := by
        rw [e1]
        simp only [people, List.map_cons, List.map_nil, outcomeOf, errorsOf, outputOf, CtxEvent.text, Outcome.good, AdvancedHistory.listing,
          List.flatMap_cons, List.flatMap_nil, entityLine, AdvancedHistory.entity, List.flatten_cons, List.flatten_nil, List.append_nil,
          List.append_assoc, if_true, Option.map_none]
        rw [people_plain (id := lit "player") (by decide +kernel), people_plain (id := lit "npc1") (by decide +kernel),
          people_plain (id := lit "npc2") (by decide +kernel)]
        have e3 : lit "ID\tName\tPayload\n--\t----\t-------\n" = lit "ID\tName\tPayload" ++ (lit "\n" ++ (lit "--\t----\t-------" ++ lit "\n")) := by
          decide +kernel
        rw [e3]
        simp only [List.append_assoc]
        rfl
      rw [← e2] at key
      exact key
  | direction =>
    have : f = (.angle, []) ∨ f = (.setAngle, []) := by simpa [senseFunctions] using hm
    have ea : S.user.angle = h.angle := by rw [hk.1]
    rcases this with rfl | rfl
    · match args, hx with
      | [], hx =>
        have hs := recounts_get hs
        obtain ⟨rfl, rfl, rfl⟩ := recounts_ret hs
        refine ⟨h, hk, ?_⟩
        have key := AdvancedTold.direction (tiny := tiny) (nan := nan) (i := ⟨name, [], named⟩) means rfl
        rw [← ea] at key
        exact key
    · obtain ⟨t, ⟨⟩⟩ := xs
      match args, hx with
      | [a], hx =>
        have ha := string_reads.1 hx.1
        subst ha
        replace hs : Recounts [] named name [] (if t = [] then .reportError (lit "Conversion error") (.get fun w => .ret (angleToString w.angle))
          else angleSet tiny nan AdvancedWorld.angleAt (angleSplit t).1 (angleSplit t).2) true S es e S' := hs
        by_cases ht : t = []
        · subst ht
          rw [if_pos rfl] at hs
          obtain ⟨_, he, hs'⟩ := recounts_error hs
          subst he
          have hs := hs'
          clear hs'
          have hs := recounts_get hs
          obtain ⟨rfl, rfl, rfl⟩ := recounts_ret hs
          exact ⟨h, hk, .emptyAngle means rfl⟩
        · rw [if_neg ht] at hs
          rcases angleSet_recounts hs with ⟨m, h1, rfl, rfl, rfl⟩ | ⟨y, h1, rfl, rfl, rfl⟩
          · exact ⟨h, hk, .noAngle means rfl (angleParts_split ht) h1⟩
          · refine ⟨{ h with angle := if (angleSplit t).2 then Fl.mul .single nan y (degreesPerRadian nan) else y }, ⟨?_, hk.2⟩, .turn means rfl (angleParts_split ht) h1 rfl⟩
            dsimp only
            rw [hk.1]
            rfl
  | whole id =>
    have : f = (.whole, id) ∨ f = (.setWhole, id) := by simpa [senseFunctions] using hm
    rcases this with rfl | rfl
    · match args, hx with
      | [], hx =>
        have hs := recounts_get (recounts_captured hs).2
        obtain ⟨rfl, rfl, rfl⟩ := recounts_ret hs
        refine ⟨h, hk, ?_⟩
        have key := AdvancedTold.whole (tiny := tiny) (nan := nan) (i := ⟨name, [], named⟩) means rfl
        have e1 : (if id ∈ people then lit "EntityId{" ++ id ++ lit "}" else lit "null") = entityText (Vw.lookup id S'.user.entities) := by
          rw [hk.found]
          by_cases hc : id ∈ people
          · rw [if_pos hc, if_pos hc]
            unfold entityText
            dsimp only
            rw [show (h.entity id).id = id from rfl, people_plain hc]
          · rw [if_neg hc, if_neg hc]
            rfl
        rw [e1] at key
        exact key
    · obtain ⟨v, ⟨⟩⟩ := xs
      match args, hx with
      | [a], hx =>
        obtain ⟨_, he, hs'⟩ := recounts_error hs
        subst he
        have hs := hs'
        clear hs'
        have hs := recounts_get (recounts_captured hs).2
        obtain ⟨rfl, rfl, rfl⟩ := recounts_ret hs
        exact ⟨h, hk, .setWhole means rfl⟩
  | field g id =>
    have : f = (.field g, id) ∨ f = (.setField g, id) := by simpa [senseFunctions] using hm
    rcases this with rfl | rfl
    · match args, hx with
      | [], hx =>
        obtain ⟨hc, rfl, rfl, rfl⟩ := member_recounts hk hs
        exact ⟨h, hk, .field means rfl hc⟩
    · cases g with
      | id =>
        obtain ⟨v, ⟨⟩⟩ := xs
        match args, hx with
        | [a], hx =>
          obtain ⟨_, he, hs'⟩ := recounts_error hs
          subst he
          have hs := hs'
          clear hs'
          obtain ⟨hc, rfl, rfl, rfl⟩ := member_recounts hk hs
          exact ⟨h, hk, .setId means rfl hc⟩
      | name =>
        obtain ⟨t, ⟨⟩⟩ := xs
        match args, hx with
        | [a], hx =>
          have ha := string_reads.1 hx.1
          subst ha
          have hs := recounts_get (recounts_captured hs).2
          rw [hk.found] at hs
          by_cases hc : id ∈ people
          · rw [if_pos hc] at hs
            have hs := recounts_set (recounts_get hs)
            have hk' : AdvKeeps ⟨S.table, { S.user with entities := change id (Field.name.put t) S.user.entities }⟩ { h with name := instead h.name id t } := by
              refine ⟨?_, hk.2⟩
              dsimp only
              rw [hk.1]
              dsimp only
              rw [change_name]
            obtain ⟨_, rfl, rfl, rfl⟩ := member_recounts hk' hs
            refine ⟨_, hk', ?_⟩
            have key := AdvancedTold.setName (tiny := tiny) (nan := nan) (i := ⟨name, [⟨[t]⟩], named⟩) means rfl hc
            have e1 : t = ({ h with name := instead h.name id t } : AdvancedHistory).fact .name id := by simp [AdvancedHistory.fact, instead]
            generalize ({ h with name := instead h.name id t } : AdvancedHistory) = h' at *
            subst e1
            exact key
          · rw [if_neg hc] at hs
            exact (recounts_ub hs).elim
      | payload =>
        obtain ⟨t, ⟨⟩⟩ := xs
        match args, hx with
        | [a], hx =>
          have ha := string_reads.1 hx.1
          subst ha
          have hs := recounts_get (recounts_captured hs).2
          rw [hk.found] at hs
          by_cases hc : id ∈ people
          · rw [if_pos hc] at hs
            have hs := recounts_set (recounts_get hs)
            have hk' : AdvKeeps ⟨S.table, { S.user with entities := change id (Field.payload.put t) S.user.entities }⟩
                { h with payload := instead h.payload id t } := by
              refine ⟨?_, hk.2⟩
              dsimp only
              rw [hk.1]
              dsimp only
              rw [change_payload]
            obtain ⟨_, rfl, rfl, rfl⟩ := member_recounts hk' hs
            refine ⟨_, hk', ?_⟩
            have key := AdvancedTold.setPayload (tiny := tiny) (nan := nan) (i := ⟨name, [⟨[t]⟩], named⟩) means rfl hc
            have e1 : t = ({ h with payload := instead h.payload id t } : AdvancedHistory).fact .payload id := by simp [AdvancedHistory.fact, instead]
            generalize ({ h with payload := instead h.payload id t } : AdvancedHistory) = h' at *
            subst e1
            exact key
          · rw [if_neg hc] at hs
            exact (recounts_ub hs).elim

theorem advanced_accounts : GrowingAccounts (advancedFunctions tiny nan) (AdvancedTold tiny nan) AdvKeeps where
  known := by
    rintro S h h' ⟨name, args, named⟩ o hk ht
    cases ht with
    | rename m ha _ | stranger m ha _ | create m ha _ =>
      dsimp only at ha m; subst ha
      exact ⟨m.1, _, _, hk.functions m.2, firstTaking_single rfl, rfl⟩
    | list m ha =>
      dsimp only at ha m; subst ha
      exact ⟨m.1, _, _, hk.functions m.2, firstTaking_single rfl, rfl⟩
    | direction m ha | whole m ha =>
      dsimp only at ha m; subst ha
      exact ⟨m.1, _, _, hk.functions m.2, firstTaking_first rfl, rfl⟩
    | field m ha _ =>
      dsimp only at ha m; subst ha
      exact ⟨m.1, _, _, hk.functions m.2, firstTaking_first rfl, rfl⟩
    | turn m ha _ _ _ | noAngle m ha _ _ | emptyAngle m ha | setWhole m ha | setId m ha _ | setName m ha _ | setPayload m ha _ =>
      dsimp only at ha m; subst ha
      exact ⟨m.1, _, _, hk.functions m.2, firstTaking_second rfl Nat.zero_ne_one, rfl⟩
  does := by
    intro S S' h i fs f xs es e hk hn hfs hf hx hs
    exact advanced_does hk hn hfs hf hx hs

theorem advanced_responsive (hk : AdvKeeps S h) (i : Input) : Responsive (advancedFunctions tiny nan) S i ↔ ¬ AdvancedTrouble h i := by
  obtain ⟨name, args, named⟩ := i
  constructor
  · rintro ha (⟨g, id, m, hc, harg⟩ | ⟨v, id, m, harg, hin⟩)
    · have hfs := hk.functions m.2
      rcases harg with harg | ⟨rfl, v, harg⟩ | ⟨t, harg⟩
      · dsimp only at harg; subst harg
        obtain ⟨_, h5⟩ := ha _ (.field g, id) m.1 hfs (firstTaking_first rfl)
        obtain ⟨es, e, S', hs⟩ := h5 () trivial
        exact hc (member_recounts hk hs).1
      · dsimp only at harg; subst harg
        obtain ⟨_, h5⟩ := ha _ (.setField .id, id) m.1 hfs (firstTaking_second rfl Nat.zero_ne_one)
        obtain ⟨es, e, S', hs⟩ := h5 (v, ()) ⟨rfl, trivial⟩
        obtain ⟨_, _, hs⟩ := recounts_error hs
        exact hc (member_recounts hk hs).1
      · dsimp only at harg; subst harg
        cases g with
        | id =>
          obtain ⟨_, h5⟩ := ha _ (.setField .id, id) m.1 hfs (firstTaking_second rfl Nat.zero_ne_one)
          obtain ⟨es, e, S', hs⟩ := h5 (⟨[t]⟩, ()) ⟨rfl, trivial⟩
          obtain ⟨_, _, hs⟩ := recounts_error hs
          exact hc (member_recounts hk hs).1
        | name =>
          obtain ⟨_, h5⟩ := ha _ (.setField .name, id) m.1 hfs (firstTaking_second rfl Nat.zero_ne_one)
          obtain ⟨es, e, S', hs⟩ := h5 (t, ()) ⟨rfl, trivial⟩
          have hs := recounts_get (recounts_captured hs).2
          rw [hk.found, if_neg hc] at hs
          exact recounts_ub hs
        | payload =>
          obtain ⟨_, h5⟩ := ha _ (.setField .payload, id) m.1 hfs (firstTaking_second rfl Nat.zero_ne_one)
          obtain ⟨es, e, S', hs⟩ := h5 (t, ()) ⟨rfl, trivial⟩
          have hs := recounts_get (recounts_captured hs).2
          rw [hk.found, if_neg hc] at hs
          exact recounts_ub hs
    · dsimp only at harg; subst harg
      obtain ⟨_, h5⟩ := ha _ (.create, []) m.1 (hk.functions m.2) (firstTaking_single rfl)
      obtain ⟨es, e, S', hs⟩ := h5 (v, id, ()) ⟨rfl, rfl, trivial⟩
      have hs := recounts_add (recounts_captured hs).2
      obtain ⟨_, hs⟩ := recounts_captured hs
      have hs := recounts_add hs
      obtain ⟨_, hs⟩ := recounts_captured hs
      have hs := recounts_add hs
      obtain ⟨h3, _⟩ := recounts_captured hs
      simp only [Bool.and_eq_true, decide_eq_true_eq, true_and] at h3
      simp only [List.mem_cons, List.not_mem_nil, or_false] at hin
      rcases hin with rfl | hin | hin
      · exact h3.1.1 rfl
      · exact h3.1.2 hin.symm
      · exact h3.2 hin.symm
  · intro hno fs f hn hfs hf
    dsimp only at hn hfs hf ⊢
    have hlen := firstTaking_length hf
    obtain ⟨s, hse, rfl⟩ := hk.sense hfs
    have hm := firstTaking_member hf
    have means : h.Means name s := ⟨hn, hse⟩
    clear hf hfs
    cases s with
    | rename =>
      have : f = (.rename, []) := by simpa [senseFunctions] using hm
      subst this
      match args, hlen with
      | [a, b], _ =>
        refine ⟨⟨string_converts a, string_converts b, trivial⟩, fun xs _ => ?_⟩
        have key : ∃ es e S', Recounts [] named name [] (match Vw.lookup xs.1 S.user.entities with
            | none => .reportError (lit "Failed to find entity '" ++ xs.1 ++ lit "'") (.ret ())
            | some _ => .set { S.user with entities := change xs.1 (Field.name.put xs.2.1) S.user.entities } (.ret ()) :
            Prog AdvancedWorld AdvancedCode Bytes Unit) true S es e S' := by
          split
          · exact ⟨_, _, _, .reportError .ret⟩
          · exact ⟨_, _, _, .set .ret⟩
        obtain ⟨es, e, S', key⟩ := key
        exact ⟨es, e, S', .captured (.get key)⟩
    | create =>
      have : f = (.create, []) := by simpa [senseFunctions] using hm
      subst this
      match args, hlen with
      | [a, b], _ =>
        refine ⟨⟨string_converts a, string_converts b, trivial⟩, fun xs hx => ?_⟩
        obtain ⟨v, id, ⟨⟩⟩ := xs
        have ha := string_reads.1 hx.1
        have hb := string_reads.1 hx.2.1
        subst ha hb
        have hin : name ∉ [v, v ++ lit ".id", v ++ lit ".name"] := fun hin => hno (.inr ⟨v, id, means, rfl, hin⟩)
        simp only [List.mem_cons, List.not_mem_nil, or_false, not_or] at hin
        obtain ⟨h1, h2, h3⟩ := hin
        exact ⟨_, _, _, recounts_addable h1 (recounts_addable h2 (recounts_addable h3 (.captured (.add .ret))))⟩
    | list =>
      have : f = (.list, []) := by simpa [senseFunctions] using hm
      subst this
      match args, hlen with
      | [], _ => exact ⟨trivial, fun xs _ => ⟨_, _, _, .logline (.logline (.captured (.get (recounts_lines.2 ⟨rfl, rfl, rfl⟩))))⟩⟩
    | direction =>
      have : f = (.angle, []) ∨ f = (.setAngle, []) := by simpa [senseFunctions] using hm
      rcases this with rfl | rfl
      · match args, hlen with
        | [], _ => exact ⟨trivial, fun xs _ => ⟨_, _, _, .get .ret⟩⟩
      · match args, hlen with
        | [a], _ =>
          refine ⟨⟨string_converts a, trivial⟩, fun xs _ => ?_⟩
          have key : ∃ es e S', Recounts [] named name [] (if xs.1 = [] then .reportError (lit "Conversion error") (.get fun w => .ret (angleToString w.angle))
            else angleSet tiny nan AdvancedWorld.angleAt (angleSplit xs.1).1 (angleSplit xs.1).2) true S es e S' := by
            split
            · exact ⟨_, _, _, .reportError (.get .ret)⟩
            · exact recounts_angleSet _ _ _ _ _ _ _ _
          exact key
    | whole id =>
      have : f = (.whole, id) ∨ f = (.setWhole, id) := by simpa [senseFunctions] using hm
      rcases this with rfl | rfl
      · match args, hlen with
        | [], _ => exact ⟨trivial, fun xs _ => ⟨_, _, _, .captured (.get .ret)⟩⟩
      · match args, hlen with
        | [a], _ => exact ⟨⟨⟨_, rfl⟩, trivial⟩, fun xs _ => ⟨_, _, _, .reportError (.captured (.get .ret))⟩⟩
    | field g id =>
      have : f = (.field g, id) ∨ f = (.setField g, id) := by simpa [senseFunctions] using hm
      rcases this with rfl | rfl
      · match args, hlen with
        | [], _ =>
          have hc : id ∈ people := Classical.byContradiction fun hc => hno (.inl ⟨g, id, means, hc, .inl rfl⟩)
          exact ⟨trivial, fun xs _ => ⟨_, _, _, recounts_member hk hc⟩⟩
      · cases g with
        | id =>
          match args, hlen with
          | [a], _ =>
            have hc : id ∈ people := Classical.byContradiction fun hc => hno (.inl ⟨.id, id, means, hc, .inr (.inl ⟨rfl, a, rfl⟩)⟩)
            exact ⟨⟨⟨_, rfl⟩, trivial⟩, fun xs _ => ⟨_, _, _, .reportError (recounts_member hk hc)⟩⟩
        | name =>
          match args, hlen with
          | [a], _ =>
            refine ⟨⟨string_converts a, trivial⟩, fun xs hx => ?_⟩
            obtain ⟨t, ⟨⟩⟩ := xs
            have ha := string_reads.1 hx.1
            subst ha
            have hc : id ∈ people := Classical.byContradiction fun hc => hno (.inl ⟨.name, id, means, hc, .inr (.inr ⟨t, rfl⟩)⟩)
            have hk' : AdvKeeps ⟨S.table, { S.user with entities := change id (Field.name.put t) S.user.entities }⟩ { h with name := instead h.name id t } := by
              refine ⟨?_, hk.2⟩
              dsimp only
              rw [hk.1]
              dsimp only
              rw [change_name]
            exact ⟨_, _, _, recounts_found (k := fun id e => match e with
              | none => .ub .nullDeref
              | some _ => .get fun w => .set { w with entities := change id (Field.name.put t) w.entities } (memberOf .name)) hk hc
              (.get (.set (recounts_member hk' hc)))⟩
        | payload =>
          match args, hlen with
          | [a], _ =>
            refine ⟨⟨string_converts a, trivial⟩, fun xs hx => ?_⟩
            obtain ⟨t, ⟨⟩⟩ := xs
            have ha := string_reads.1 hx.1
            subst ha
            have hc : id ∈ people := Classical.byContradiction fun hc => hno (.inl ⟨.payload, id, means, hc, .inr (.inr ⟨t, rfl⟩)⟩)
            have hk' : AdvKeeps ⟨S.table, { S.user with entities := change id (Field.payload.put t) S.user.entities }⟩
                { h with payload := instead h.payload id t } := by
              refine ⟨?_, hk.2⟩
              dsimp only
              rw [hk.1]
              dsimp only
              rw [change_payload]
            exact ⟨_, _, _, recounts_found (k := fun id e => match e with
              | none => .ub .nullDeref
              | some _ => .get fun w => .set { w with entities := change id (Field.payload.put t) w.entities } (memberOf .payload)) hk hc
              (.get (.set (recounts_member hk' hc)))⟩

theorem advanced_begins : AdvKeeps ⟨advancedTable, AdvancedWorld.start⟩ advancedBeginning := by
  refine ⟨?_, fun n => ?_⟩
  · decide +kernel
  · show Table.functions ([] ++ [(lit "entities.rename", [(AdvancedCode.rename, ([] : Bytes))])] ++ [(lit "entities.create_entity_variable", [(AdvancedCode.create, [])])] ++
      [(lit "entities.list", [(AdvancedCode.list, [])])] ++ [(lit "direction", [(AdvancedCode.angle, []), (AdvancedCode.setAngle, [])])]) n = _
    simp only [functions_more, advancedBeginning, instead]
    split
    · rfl
    split
    · rfl
    split
    · rfl
    split <;> rfl

/-! ## Names that stand for commands -/

/-- What is always so: the commands of the beginning have no other names, and `entities.create_entity_variable` stays what it is. -/
def Rooted (h : AdvancedHistory) : Prop :=
  h.sense (lit "entities.create_entity_variable") = some .create ∧ (∀ n, h.sense n = some .create → n = lit "entities.create_entity_variable") ∧
  (∀ n, h.sense n = some .rename → n = lit "entities.rename") ∧ ∀ n, h.sense n = some .direction → n = lit "direction"

theorem not_suffixed {v a b : Bytes} (h : ¬ a <:+ b) : b ≠ v ++ a := fun e => h ⟨v, e.symm⟩

theorem rooted_begins : Rooted advancedBeginning := by
  refine ⟨by decide +kernel, ?_, ?_, ?_⟩ <;>
  · intro n hn
    simp only [advancedBeginning, instead] at hn
    split at hn
    · first | (cases hn; done) | assumption
    split at hn
    · first | (cases hn; done) | assumption
    split at hn
    · first | (cases hn; done) | assumption
    split at hn
    · first | (cases hn; done) | assumption
    · cases hn

theorem rooted_variables {h : AdvancedHistory} {v id : Bytes} (hr : Rooted h) (hv : v ≠ lit "entities.create_entity_variable") :
    Rooted (h.variables v id) := by
  obtain ⟨h1, h2, h3, h4⟩ := hr
  have other : ∀ {n : Bytes} {x : Sense}, (∀ id, x ≠ .whole id) → (∀ f id, x ≠ .field f id) → (h.variables v id).sense n = some x → h.sense n = some x := by
    intro n x hx1 hx2 hn
    simp only [AdvancedHistory.variables, instead] at hn
    split at hn
    · cases hn; exact absurd rfl (hx2 _ _)
    split at hn
    · cases hn; exact absurd rfl (hx2 _ _)
    split at hn
    · cases hn; exact absurd rfl (hx2 _ _)
    split at hn
    · cases hn; exact absurd rfl (hx1 _)
    · exact hn
  refine ⟨?_, fun n hn => h2 n (other (by simp) (by simp) hn), fun n hn => h3 n (other (by simp) (by simp) hn), fun n hn => h4 n (other (by simp) (by simp) hn)⟩
  simp only [AdvancedHistory.variables, instead]
  rw [if_neg (not_suffixed (by decide +kernel)), if_neg (not_suffixed (by decide +kernel)), if_neg (not_suffixed (by decide +kernel)), if_neg fun e => hv e.symm]
  exact h1

theorem rooted_told {h h' : AdvancedHistory} {i : Input} {o : Outcome} (hr : Rooted h) (ht : AdvancedTold tiny nan h i h' o) : Rooted h' := by
  cases ht with
  | create m _ hn =>
    refine rooted_variables hr fun e => hn ?_
    rw [e, hr.2.1 _ m.2]
    exact List.mem_cons_self
  | rename | stranger | list | direction | turn | noAngle | emptyAngle | whole | setWhole | field | setId | setName | setPayload => exact hr

end Coil
