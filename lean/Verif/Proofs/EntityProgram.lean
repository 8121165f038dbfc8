import Verif.Spec.EntityProgram
import Verif.Proofs.Account
import Verif.Proofs.BasicExample
import Verif.Props.Variadic

/-!
# The program of examples/variadic: lemmas
-/

namespace Coil
open Spec

variable {pl : Platform}

theorem ent_rename : Table.functions entityTable (lit "entities.rename") = some [(.rename, ())] := by decide +kernel
theorem ent_list : Table.functions entityTable (lit "entities.list") = some [(.list, ())] := by decide +kernel
theorem ent_add : Table.functions entityTable (lit "entities.add") = some [(.add, ())] := by decide +kernel

theorem listLoop_quiet : ∀ es : List Entity, Quiet (listLoop es : Prog (List Entity) EntityCode Unit Unit)
  | [] => .ret
  | _ :: es => .logline (listLoop_quiet es)

theorem renameWhere_quiet (v : Value) (n : Bytes) (p : Entity → Bool) :
    Quiet (renameWhere theEntities v n p : Prog (List Entity) EntityCode Unit Unit) := by
  refine .get fun w => ?_
  split
  · exact .set .ret
  · exact .reportError .ret

theorem idText_reads {v : Value} {z : Int} : (intConv pl .ulong).fromString v = .ok (.ok z) ↔ ∃ t, v = ⟨[t]⟩ ∧ IdText pl t z := by
  constructor
  · intro h
    by_cases hv : v.subvalues.length = 1
    · obtain ⟨l⟩ := v
      match l, hv with
      | [t], _ => exact ⟨t, rfl, idText_iff.1 h⟩
    · rw [C15_int hv] at h
      simp at h
  · rintro ⟨t, rfl, h⟩
    exact idText_iff.2 h

/-- The three ways the arguments of `entities.rename` can be. -/
theorem rename_cases (v : Value) (n : Bytes) (h : List Entity) (l : List Named) :
    ∃ es h', Says () l [] (renameProg (C := EntityCode) (D := Unit) pl theEntities v n) h es (.ret ()) h' ∧
      ∀ named, RosterTold pl h ⟨lit "entities.rename", [v, ⟨[n]⟩], named⟩ h' (outcomeOf none es (.ret ())) := by
  by_cases hv : v.subvalues.length = 1
  · obtain ⟨vs⟩ := v
    match vs, hv with
    | [t], _ =>
      have hstr : GValue.str ⟨[t]⟩ = t := by simp [GValue.str, valueStrLoop]
      obtain ⟨p, hp, hq⟩ := renameProg_text (W := List Entity) (C := EntityCode) (D := Unit) (pl := pl) (at_ := theEntities) t
      rw [hp]
      rcases findEntity_cases p h with ⟨pre, e, post, rfl, h2, h3⟩ | h1
      · refine ⟨[], pre ++ ⟨e.id, n⟩ :: post, .get ?_, fun named => .rename ?_⟩
        · show Says _ _ _ (match findEntity p (pre ++ e :: post) with | some i => _ | none => _) _ _ _ _
          rw [findEntity_some h2 h3]
          simp only [theEntities, modify_middle]
          exact .set .ret
        · rcases hq with ⟨z, h4, rfl⟩ | ⟨h4, rfl⟩
          · exact .id h4 (by simpa using h2) fun x hx => by simpa using h3 x hx
          · exact .name h4 (by simpa using h2) fun x hx => by simpa using h3 x hx
      · refine ⟨[.error (lit "Failed to find entity '" ++ t ++ lit "'")], h, .get ?_, fun named => .lost ?_⟩
        · show Says _ _ _ (match findEntity p h with | some i => _ | none => _) _ _ _ _
          rw [findEntity_none h1]
          show Says _ _ _ (.reportError (lit "Failed to find entity '" ++ GValue.str ⟨[t]⟩ ++ lit "'") (.ret ())) _ _ _ _
          rw [hstr]
          exact .reportError .ret
        · rintro ⟨pre, e, post, hr⟩
          cases hr with
          | id g1 g2 g3 =>
            rename_i z
            rcases hq with ⟨z', h4, rfl⟩ | ⟨h4, _⟩
            · have : z' = z := by
                have := (idText_iff.2 h4).symm.trans (idText_iff.2 g1)
                simpa using this
              subst this
              have := h1 e (by simp)
              simp [g2] at this
            · exact h4 ⟨_, g1⟩
          | name g1 g2 g3 =>
            rcases hq with ⟨z', h4, _⟩ | ⟨_, rfl⟩
            · exact g1 ⟨_, h4⟩
            · have := h1 e (by simp)
              simp [g2] at this
  · refine ⟨[.error _, .error _, .error _], h, ?_, fun named => .parts hv⟩
    unfold renameProg
    rw [C15_int hv, C15_string hv]
    exact .reportError (.reportError (.reportError .ret))

theorem listLoop_says (l : List Named) (h : List Entity) : ∀ (es : List Entity) (past : List CtxEvent), ∃ ev,
    Says () l past (listLoop es : Prog (List Entity) EntityCode Unit Unit) h ev (.ret ()) h ∧ errorsOf ev = [] ∧
      outputOf ev = (es.map fun e => intDec e.id ++ lit ": " ++ upToNul e.name ++ lit "\n").flatten
  | [], _ => ⟨[], .ret, rfl, rfl⟩
  | e :: es, past => by
    obtain ⟨ev, h1, h2, h3⟩ := listLoop_says l h es (past ++ [.logline (intDec e.id ++ lit ": " ++ cstr e.name)])
    refine ⟨_, .logline h1, h2, ?_⟩
    rw [List.map_cons, List.flatten_cons, ← h3]
    rfl

/-- Every function comes to an end, and what it does is told. -/
theorem entity_does {c : EntityCode} {nm : Bytes} {args : List Value} {named : List Named} {xs : Args (entityFunctions pl c).params}
    (hc : (nm, [(c, ())]) ∈ entityTable) (hx : ConvertTo (entityFunctions pl c).params args xs) (h : List Entity) :
    ∃ es e h', Says () named [] ((entityFunctions pl c).body xs) h es e h' ∧
      RosterTold pl h ⟨nm, args, named⟩ h' (outcomeOf (entityFunctions pl c).print es e) := by
  simp only [entityTable, List.mem_cons, List.not_mem_nil, or_false, Prod.mk.injEq, and_true] at hc
  rcases hc with ⟨rfl, hc⟩ | ⟨rfl, hc⟩ | ⟨rfl, hc⟩ <;> cases hc
  · match args, hx with
    | [a, b], hx =>
      obtain ⟨h1, h2, _⟩ := hx
      have h1' : xs.1 = a := by
        have : (Except.ok a : Except Bytes Value) = .ok xs.1 := by simpa [valueConv] using h1
        cases this
        rfl
      have h2' : b = ⟨[xs.2.1]⟩ := string_reads.1 h2
      obtain ⟨es, h', g1, g2⟩ := rename_cases (pl := pl) a xs.2.1 h named
      rw [h2']
      refine ⟨es, .ret (), h', ?_, g2 named⟩
      show Says _ _ _ (renameProg pl theEntities xs.1 xs.2.1) _ _ _ _
      rw [h1']
      exact g1
  · match args, hx with
    | [], _ =>
      obtain ⟨ev, g1, g2, g3⟩ := listLoop_says named h h [.logline (lit "Entities:")]
      refine ⟨_, _, h, .logline (.get g1), ?_⟩
      have ho : outcomeOf (R := Unit) none (.logline (lit "Entities:") :: ev) (.ret ()) = .good none (entitiesText h) := by
        have e1 : errorsOf (.logline (lit "Entities:") :: ev) = [] := g2
        have e2 : outputOf (.logline (lit "Entities:") :: ev) = entitiesText h := by
          unfold entitiesText
          rw [← g3]
          rfl
        simp only [outcomeOf, e1, e2, Option.map_none, if_true]
        rfl
      exact ho ▸ .list
  · match args, hx with
    | [a, b], hx =>
      obtain ⟨h1, h2, _⟩ := hx
      obtain ⟨t, rfl, ht⟩ := idText_reads.1 h1
      have h2' : b = ⟨[xs.2.1]⟩ := string_reads.1 h2
      rw [h2']
      exact ⟨[], .ret (), h ++ [⟨xs.1, xs.2.1⟩], .get (.set .ret), .add ht⟩

theorem entity_quiet : AllQuiet (entityFunctions pl) := by
  intro c xs
  cases c with
  | rename =>
    show Quiet (renameProg pl theEntities xs.1 xs.2.1)
    unfold renameProg
    cases (intConv pl .ulong).fromString xs.1 with
    | ub => exact .ub
    | diverge => exact .diverge
    | ok r =>
      cases r with
      | ok z => exact renameWhere_quiet _ _ _
      | error m =>
        show Quiet ((Prog.ofRes (stringConv.fromString xs.1)).bind _)
        cases stringConv.fromString xs.1 with
        | ub => exact .ub
        | diverge => exact .diverge
        | ok r =>
          cases r with
          | ok z => exact renameWhere_quiet _ _ _
          | error m => exact .reportError (.reportError (.reportError .ret))
  | list => exact .logline (.get fun w => listLoop_quiet w)
  | add => exact .get fun w => .set .ret

theorem entity_member {i : Input} {fs : List (EntityCode × Unit)} {f : EntityCode × Unit} (hfs : Table.functions entityTable i.name = some fs)
    (hf : f ∈ fs) : (i.name, [(f.1, ())]) ∈ entityTable := by
  have hm := functions_mem hfs
  simp only [entityTable, List.mem_cons, List.not_mem_nil, or_false, Prod.mk.injEq] at hm ⊢
  rcases hm with ⟨h1, rfl⟩ | ⟨h1, rfl⟩ | ⟨h1, rfl⟩ <;> simp only [List.mem_cons, List.not_mem_nil, or_false] at hf <;> subst hf
  · exact .inl ⟨h1, rfl⟩
  · exact .inr (.inl ⟨h1, rfl⟩)
  · exact .inr (.inr ⟨h1, rfl⟩)

theorem entity_accounts : Accounts (entityFunctions pl) entityTable (RosterTold pl) (fun w h => w = h) where
  known := by
    intro h h' i o t
    cases t with
    | add ht =>
      refine ⟨by dsimp only; decide +kernel, _, _, ent_add, firstTaking_single rfl, ?_⟩
      simp only [entityFunctions, addEntityDef, conversionErrors, idText_iff.2 ht, string_reads.2 rfl]
    | list => exact ⟨by dsimp only; decide +kernel, _, _, ent_list, firstTaking_single rfl, rfl⟩
    | rename | lost | parts => exact ⟨by dsimp only; decide +kernel, _, _, ent_rename, firstTaking_single rfl, rfl⟩
  does := by
    rintro w w' _ ⟨nm, args, named⟩ fs ⟨c, ⟨⟩⟩ xs es e rfl hfs hf hx hs
    obtain ⟨es', e', h', g1, g2⟩ := entity_does (named := named) (entity_member hfs (firstTaking_member hf)) hx w
    obtain ⟨rfl, rfl, rfl⟩ := says_unique g1 hs
    exact ⟨w', rfl, g2⟩

theorem entity_answerable (i : Input) : Answerable (entityFunctions pl) entityTable (fun _ => True) i := by
  rintro fs ⟨c, ⟨⟩⟩ _ hfs hf
  have hlen := firstTaking_length hf
  have hmem := entity_member hfs (firstTaking_member hf)
  obtain ⟨nm, args, named⟩ := i
  dsimp only at hlen hmem ⊢
  refine ⟨?_, fun xs hx w _ => ?_⟩
  · cases c with
    | rename =>
      match args, hlen with
      | [a, b], _ => exact ⟨⟨_, rfl⟩, string_converts b, trivial⟩
    | list =>
      match args, hlen with
      | [], _ => exact trivial
    | add =>
      match args, hlen with
      | [a, b], _ => exact ⟨int_converts a, string_converts b, trivial⟩
  · obtain ⟨es, e, h', g, _⟩ := entity_does (named := named) hmem hx w
    exact ⟨es, e, h', g⟩

/-- Whatever the arguments and the state, a function comes to an end. -/
theorem entity_total (c : EntityCode) (xs : Args (entityFunctions pl c).params) (l : List Named) (w : List Entity) :
    ∃ es e w', Says () l [] ((entityFunctions pl c).body xs) w es e w' := by
  cases c with
  | rename =>
    obtain ⟨es, h', g, _⟩ := rename_cases (pl := pl) xs.1 xs.2.1 w l
    exact ⟨es, _, h', g⟩
  | list =>
    obtain ⟨ev, g, _⟩ := listLoop_says l w w [.logline (lit "Entities:")]
    exact ⟨_, _, w, .logline (.get g)⟩
  | add => exact ⟨_, _, _, .get (.set .ret)⟩

theorem entity_steady : Steady (entityFunctions pl) entityTable fun _ => True where
  same := fun {_ f xs l _ v _ _ _} _ _ _ _ _ => entity_total f.1 xs l v
  stays := fun _ _ _ _ => trivial

end Coil
