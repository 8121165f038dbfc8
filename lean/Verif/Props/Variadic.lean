import Verif.Proofs.OneForm
import Verif.Props.Access
import Verif.Props.Conv
import Verif.Props.Lexer
import Verif.Spec.Variadic

/-!
# Renaming entities (C102)
-/

namespace Coil
open Spec

namespace Demo

def entitiesAt : EntitiesAt (List Entity) := ⟨id, fun _ x => x⟩

def PEnt : Nat → FunctorDef (List Entity) Nat Nat
  | 0 => renameDef pl entitiesAt
  | 1 => listDef entitiesAt
  | _ => addEntityDef pl entitiesAt

def startEnt : Res (Sys Reg (List Entity) Nat Nat) := do
  let m ← UMap.create (djb2 true) 1
  let s ← bindingsAdd ops ⟨m, some (lexRead (LexCfg.default true)), [], [], 0, [], []⟩ (lit "entities.rename") [(0, 0)]
  let s ← bindingsAdd ops s (lit "entities.list") [(1, 0)]
  bindingsAdd ops s (lit "entities.add") [(2, 0)]

def execEnt (lines : List String) : Res (List (Option (Answer × Bytes)) × List Entity) := do
  let s ← startEnt
  let (s', os) ← executeAll PEnt ops true 3 s (lines.map fun t => .line (lit t))
  .ok (os.map answer, s'.user)

end Demo

variable {S W C D : Type} {P : C → FunctorDef W C D} {ops : RegOps S C D} {catching : Bool} {fuel depth : Nat}
  {s : Sys S W C D} {req : Request} {name : Bytes} {f : Inst C D} {named : List Named} {v : Value}
  {pl : Platform} {at_ : EntitiesAt W} {t new : Bytes}

theorem idText_iff {z : Int} : (intConv pl .ulong).fromString ⟨[t]⟩ = .ok (.ok z) ↔ IdText pl t z :=
  C13_unsigned_iff (by simp [IsSignedParse])

theorem idText_reject (h : ¬ ∃ z, IdText pl t z) : ∃ e, (intConv pl .ulong).fromString ⟨[t]⟩ = .ok (.error e) := by
  unfold intConv
  rw [arithConv_single]
  cases hf : IntType.ulong.fromString pl t with
  | none => exact ⟨_, rfl⟩
  | some z =>
    refine absurd ⟨z, idText_iff.1 ?_⟩ h
    unfold intConv
    rw [arithConv_single, hf]

theorem findEntity_some {p : Entity → Bool} {pre post : List Entity} {e : Entity} (he : p e = true) (hp : ∀ x ∈ pre, p x = false) :
    findEntity p (pre ++ e :: post) = some pre.length := by
  induction pre with
  | nil => simp [findEntity, he]
  | cons x pre ih =>
    have := hp x (by simp)
    simp only [List.cons_append, findEntity, this, Bool.false_eq_true, if_false, ih fun y hy => hp y (by simp [hy])]
    rfl

theorem findEntity_none {p : Entity → Bool} {es : List Entity} (hp : ∀ x ∈ es, p x = false) : findEntity p es = none := by
  induction es with
  | nil => rfl
  | cons x es ih =>
    have := hp x (by simp)
    simp only [findEntity, this, Bool.false_eq_true, if_false, ih fun y hy => hp y (by simp [hy])]
    rfl

theorem modify_middle {pre post : List Entity} {e : Entity} {g : Entity → Entity} :
    (pre ++ e :: post).modify pre.length g = pre ++ g e :: post := by
  induction pre with
  | nil => rfl
  | cons x pre ih => simp only [List.cons_append, List.length_cons, List.modify_succ_cons, ih]

theorem findEntity_cases (p : Entity → Bool) (es : List Entity) :
    (∃ pre e post, es = pre ++ e :: post ∧ p e = true ∧ ∀ x ∈ pre, p x = false) ∨ ∀ x ∈ es, p x = false := by
  induction es with
  | nil => exact .inr (by simp)
  | cons x es ih =>
    cases hx : p x with
    | true => exact .inl ⟨[], x, es, rfl, hx, by simp⟩
    | false =>
      rcases ih with ⟨pre, e, post, rfl, he, hp⟩ | h
      · refine .inl ⟨x :: pre, e, post, rfl, he, ?_⟩
        intro y hy
        rcases List.mem_cons.1 hy with rfl | hy
        · exact hx
        · exact hp y hy
      · refine .inr ?_
        intro y hy
        rcases List.mem_cons.1 hy with rfl | hy
        · exact hx
        · exact h y hy

/-- The two ways `renameWhere` ends. -/
theorem renameWhere_runs {ne : Nested S W C D} {l : List Named} {p : Entity → Bool} :
    (∀ {pre e post}, at_.read s.user = pre ++ e :: post → p e = true → (∀ x ∈ pre, p x = false) →
      Runs ops ne f l [] (renameWhere at_ v new p) s [] (.ret ())
        { s with user := at_.write s.user (pre ++ { e with name := new } :: post) }) ∧
    ((∀ x ∈ at_.read s.user, p x = false) →
      Runs ops ne f l [] (renameWhere at_ v new p) s [CtxEvent.error (lit "Failed to find entity '" ++ v.str ++ lit "'")] (.ret ()) s) := by
  constructor
  · intro pre e post h1 h2 h3
    refine .get ?_
    rw [h1, findEntity_some h2 h3]
    simp only [modify_middle]
    exact .set .ret
  · intro h
    refine .get ?_
    rw [findEntity_none h]
    exact .reportError .ret

/-- The body with a text. -/
theorem renameProg_text (t : Bytes) : ∃ p : Entity → Bool,
    (∀ new, renameProg (W := W) (C := C) (D := D) pl at_ ⟨[t]⟩ new = renameWhere at_ ⟨[t]⟩ new p) ∧
    ((∃ z, IdText pl t z ∧ p = fun e => decide (e.id = z)) ∨ ((¬ ∃ z, IdText pl t z) ∧ p = fun e => decide (e.name = t))) := by
  by_cases h : ∃ z, IdText pl t z
  · obtain ⟨z, hz⟩ := h
    refine ⟨fun e => decide (e.id = z), fun new => ?_, .inl ⟨z, hz, rfl⟩⟩
    unfold renameProg
    rw [idText_iff.2 hz]
    rfl
  · obtain ⟨e, he⟩ := idText_reject h
    refine ⟨fun e => decide (e.name = t), fun new => ?_, .inr ⟨h, rfl⟩⟩
    unfold renameProg
    rw [he]
    rfl

/-! ## C102 -/

/-- **C102.** `entities.rename t new` gives the entity that `t` refers to the new name, and changes nothing else. If there is none, that is
reported and nothing changes. -/
theorem C102_rename (h : OneForm P ops s name (renameDef pl at_) f) (hm : Means s.lexer req ⟨name, [⟨[t]⟩, ⟨[new]⟩], named⟩) :
    (∀ pre e post, Refers pl t (at_.read s.user) pre e post →
      ∃ out, (nested P ops catching (fuel + 1) depth).exec s req =
          .ok ({ s with calls := s.calls ++ [(depth, f.id)],
                        user := at_.write s.user (pre ++ { e with name := new } :: post) }, out) ∧
        answerOf out = some ⟨[], none⟩) ∧
    ((¬ ∃ pre e post, Refers pl t (at_.read s.user) pre e post) →
      ∃ out, (nested P ops catching (fuel + 1) depth).exec s req = .ok ({ s with calls := s.calls ++ [(depth, f.id)] }, out) ∧
        answerOf out = some ⟨[lit "Failed to find entity '" ++ t ++ lit "'"], none⟩) := by
  have hc : ConvertTo (renameDef (W := W) (C := C) (D := D) pl at_).params [⟨[t]⟩, ⟨[new]⟩] (⟨[t]⟩, new, ()) := ⟨rfl, rfl, trivial⟩
  have hstr : GValue.str ⟨[t]⟩ = t := by simp [GValue.str, valueStrLoop]
  obtain ⟨p, hp, hq⟩ := renameProg_text (W := W) (C := C) (D := D) (pl := pl) (at_ := at_) t
  constructor
  · intro pre e post hr
    have key : ∃ (_ : at_.read s.user = pre ++ e :: post) (_ : p e = true), ∀ x ∈ pre, p x = false := by
      generalize at_.read s.user = es at hr
      cases hr with
      | id h1 h2 h3 =>
        rename_i z
        rcases hq with ⟨z', h4, rfl⟩ | ⟨h4, _⟩
        · have : z' = z := by
            have := (idText_iff.2 h4).symm.trans (idText_iff.2 h1)
            simpa using this
          subst this
          exact ⟨rfl, by simpa using h2, fun x hx => by simpa using h3 x hx⟩
        · exact absurd ⟨_, h1⟩ h4
      | name h1 h2 h3 =>
        rcases hq with ⟨z', h4, _⟩ | ⟨_, rfl⟩
        · exact absurd ⟨_, h4⟩ h1
        · exact ⟨rfl, by simpa using h2, fun x hx => by simpa using h3 x hx⟩
    obtain ⟨k1, k2, k3⟩ := key
    refine ⟨_, h.returns hm hc (es := []) (e := .ret ()) ?_, rfl⟩
    show Runs _ _ _ _ _ (renameProg pl at_ ⟨[t]⟩ new) _ _ _ _
    rw [hp]
    exact renameWhere_runs.1 k1 k2 k3
  · intro hr
    have key : ∀ x ∈ at_.read s.user, p x = false := by
      rcases findEntity_cases p (at_.read s.user) with ⟨pre, e, post, h1, h2, h3⟩ | h1
      · refine absurd ⟨pre, e, post, ?_⟩ hr
        rw [h1]
        rcases hq with ⟨z, h4, rfl⟩ | ⟨h4, rfl⟩
        · exact .id h4 (by simpa using h2) fun x hx => by simpa using h3 x hx
        · exact .name h4 (by simpa using h2) fun x hx => by simpa using h3 x hx
      · exact h1
    refine ⟨_, h.returns hm hc (es := [CtxEvent.error (lit "Failed to find entity '" ++ t ++ lit "'")]) (e := .ret ()) ?_, rfl⟩
    show Runs _ _ _ _ _ (renameProg pl at_ ⟨[t]⟩ new) _ _ _ _
    rw [hp]
    have := (renameWhere_runs (ops := ops) (ne := nested P ops catching fuel (depth + 1)) (f := f) (l := named) (new := new)
      (v := (⟨[t]⟩ : Value)) (at_ := at_) (p := p) (s := { s with calls := s.calls ++ [(depth, f.id)] })).2 key
    rwa [hstr] at this

/-- **C102.** An argument that is not one text is neither: three errors, and nothing changes. -/
theorem C102_unknown (h : OneForm P ops s name (renameDef pl at_) f) (hm : Means s.lexer req ⟨name, [v, ⟨[new]⟩], named⟩)
    (hv : v.subvalues.length ≠ 1) :
    ∃ out e1 e2, (nested P ops catching (fuel + 1) depth).exec s req = .ok ({ s with calls := s.calls ++ [(depth, f.id)] }, out) ∧
      answerOf out = some ⟨[lit "Unknown type of 'entity'", e1, e2], none⟩ ∧
      e1 = cannotConvertBecause (cstr (joined v.subvalues)) (IntType.ulong.name pl) (wrongSubvalues 1 v.subvalues.length) ∧
      e2 = cannotConvertBecause (cstr (joined v.subvalues)) (lit "string") (wrongSubvalues 1 v.subvalues.length) := by
  have hc : ConvertTo (renameDef (W := W) (C := C) (D := D) pl at_).params [v, ⟨[new]⟩] (v, new, ()) := ⟨rfl, rfl, trivial⟩
  refine ⟨_, _, _, h.returns hm hc (es := [.error (lit "Unknown type of 'entity'"), .error _, .error _]) (e := .ret ()) ?_, rfl, rfl, rfl⟩
  show Runs _ _ _ _ _ (renameProg pl at_ v new) _ _ _ _
  unfold renameProg
  rw [C15_int hv, C15_string hv]
  exact .reportError (.reportError (.reportError .ret))

/-- **C102.** An entity is reached by its name if and only if the name is no id and no entity before has the same name. -/
theorem C102_reachable_partial {pre post : List Entity} {e : Entity} :
    Refers pl e.name (pre ++ e :: post) pre e post ↔
      (¬ (∃ z, IdText pl e.name z) ∧ ∀ x ∈ pre, x.name ≠ e.name) ∨ (IdText pl e.name e.id ∧ ∀ x ∈ pre, x.id ≠ e.id) := by
  constructor
  · intro h
    generalize hes : pre ++ e :: post = es at h
    cases h with
    | id h1 h2 h3 => subst h2; exact .inr ⟨h1, h3⟩
    | name h1 _ h3 => exact .inl ⟨h1, h3⟩
  · rintro (⟨h1, h2⟩ | ⟨h1, h2⟩)
    · exact .name h1 rfl h2
    · exact .id h1 rfl h2

/-- **C102, negation.** Renaming by name can fail or rename another entity: for names that are ids. -/
theorem C102_false :
    Demo.execEnt ["entities.add 7 tree", "entities.rename tree 8", "entities.rename 8 bush"] =
      .ok ([some (⟨[], none⟩, []), some (⟨[], none⟩, []), some (⟨[lit "Failed to find entity '8'"], none⟩, [])], [⟨7, lit "8"⟩]) ∧
    Demo.execEnt ["entities.add 7 8", "entities.add 8 rock", "entities.rename 8 bush"] =
      .ok ([some (⟨[], none⟩, []), some (⟨[], none⟩, []), some (⟨[], none⟩, [])], [⟨7, lit "8"⟩, ⟨8, lit "bush"⟩]) := by
  refine ⟨?_, ?_⟩ <;> decide +kernel

/-- **C102.** `entities.list` prints a line for each entity, and changes nothing. -/
theorem C102_list (h : OneForm P ops s name (listDef at_) f) (hm : Means s.lexer req ⟨name, [], named⟩) :
    ∃ r, (nested P ops catching (fuel + 1) depth).exec s req = .ok ({ s with calls := s.calls ++ [(depth, f.id)] }, .ok r) ∧
      r.errors = [] ∧ r.returnValue = none ∧
      r.output = lit "Entities:" ++ [10] ++ ((at_.read s.user).map fun e => intDec e.id ++ lit ": " ++ cstr e.name ++ [10]).flatten := by
  have hloop : ∀ (es : List Entity) (past : List CtxEvent) (s : Sys S W C D),
      ∃ ev, Runs ops (nested P ops catching fuel (depth + 1)) f named past (listLoop es) s ev (.ret ()) s ∧
        errorsOf ev = [] ∧ outputOf ev = (es.map fun e => intDec e.id ++ lit ": " ++ cstr e.name ++ [10]).flatten := by
    intro es
    induction es with
    | nil => exact fun past s => ⟨[], .ret, rfl, rfl⟩
    | cons e es ih =>
      intro past s
      obtain ⟨ev, h1, h2, h3⟩ := ih (past ++ [.logline (intDec e.id ++ lit ": " ++ cstr e.name)]) s
      refine ⟨_, .logline h1, h2, ?_⟩
      rw [List.map_cons, List.flatten_cons, ← h3]
      rfl
  obtain ⟨ev, h1, h2, h3⟩ := hloop (at_.read s.user) ([] ++ [.logline (lit "Entities:")]) { s with calls := s.calls ++ [(depth, f.id)] }
  have hr : Runs ops (nested P ops catching fuel (depth + 1)) f named [] ((listDef (C := C) (D := D) at_).body ())
      { s with calls := s.calls ++ [(depth, f.id)] } (.logline (lit "Entities:") :: ev) (.ret ())
      { s with calls := s.calls ++ [(depth, f.id)] } := .logline (.get h1)
  have he : errorsOf (.logline (lit "Entities:") :: ev) = [] := h2
  refine ⟨_, h.returns hm (xs := ()) trivial hr, he, ?_, ?_⟩
  · simp only [he]
    rfl
  · rw [← h3]
    rfl

/-- **C102.** `entities.add` appends an entity. -/
theorem C102_add (h : OneForm P ops s name (addEntityDef pl at_) f) {i : Bytes} (hm : Means s.lexer req ⟨name, [⟨[i]⟩, ⟨[new]⟩], named⟩)
    {z : Int} (hz : IdText pl i z) :
    ∃ out, (nested P ops catching (fuel + 1) depth).exec s req =
        .ok ({ s with calls := s.calls ++ [(depth, f.id)], user := at_.write s.user (at_.read s.user ++ [⟨z, new⟩]) }, out) ∧
      answerOf out = some ⟨[], none⟩ := by
  have hc : ConvertTo (addEntityDef (W := W) (C := C) (D := D) pl at_).params [⟨[i]⟩, ⟨[new]⟩] (z, new, ()) :=
    ⟨idText_iff.2 hz, rfl, trivial⟩
  exact ⟨_, h.returns hm hc (es := []) (e := .ret ()) (.get (.set .ret)), rfl⟩

example : Demo.execEnt ["entities.add 0 entity0", "entities.add 1 entity1", "entities.add 2 entity2", "entities.rename 0 player0",
      "entities.rename entity1 player1", "entities.rename 3 player3", "entities.rename 1,2 x", "entities.list"] =
    .ok ([some (⟨[], none⟩, []), some (⟨[], none⟩, []), some (⟨[], none⟩, []), some (⟨[], none⟩, []), some (⟨[], none⟩, []),
      some (⟨[lit "Failed to find entity '3'"], none⟩, []),
      some (⟨[lit "Unknown type of 'entity'",
        lit "Unable to convert '1 2' to type 'unsigned long': Expected 1 subvalues, got 2",
        lit "Unable to convert '1 2' to type 'string': Expected 1 subvalues, got 2"], none⟩, []),
      some (⟨[], none⟩, lit "Entities:\n0: player0\n1: player1\n2: entity2\n")],
      [⟨0, lit "player0"⟩, ⟨1, lit "player1"⟩, ⟨2, lit "entity2"⟩]) := by
  decide +kernel

end Coil
