import Verif.Proofs.KeptExamples
import Verif.Props.Views

/-!
# Functions that keep views (C95)
-/

namespace Coil
open Vw Vw.Spec

variable {S W W' C D : Type} {V : C → VDef W C D} {P : C → FunctorDef W' C D} {ops : RegOps S C D} {catching : Bool} {lex : VLexer}
  {fuel : Nat} {m base : Mem} {s : Sys S W C D} {s' : Sys S W' C D} {I : Mem → W → W' → Prop}

/-- **C95.** Functions that keep views do what the functions do that keep copies of the texts, in any session of commands whose texts stay in
place: where the session on texts is defined, the one on views is, the states correspond at the end, the results are the same, and the
commands in all results can still be read. -/
theorem C95_in_place_partial (hI : Lasting I) (hP : ∀ c, DefUnder I (V c) (P c)) (hs : SysIs I m s s') (hl : s'.lexer = some (textLexer lex))
    (ts : List Bytes) :
    (∀ s2' os', executeAll P ops catching fuel s' (ts.map .line) = .ok (s2', os') →
      ∃ m2 s2 os, inPlace lex V ops catching fuel ⟨m, s⟩ ts = .ok (⟨m2, s2⟩, os) ∧ SysIs I m2 s2 s2' ∧ Keeps m m2 ∧ Both (OutIs m2) os os') ∧
    (executeAll P ops catching fuel s' (ts.map .line) = .diverge → inPlace lex V ops catching fuel ⟨m, s⟩ ts = .diverge) := by
  have h := inPlace_sim (ops := ops) (catching := catching) (lex := lex) (fuel := fuel) hI hP ts m s s' hs hl
  refine ⟨fun s2' os' ho => ?_, fun hd => ?_⟩
  · rw [ho] at h
    obtain ⟨⟨⟨m2, s2⟩, os⟩, h1, h2, h3, h4⟩ := h
    exact ⟨m2, s2, os, h1, h2, h3, h4⟩
  · rw [hd] at h
    exact h

/-- **C95.** If what is kept is in buffers that the console does not own, the console may destroy each line after executing it, and shows
what it would show with copies. -/
theorem C95_each_line_partial (hI : Lasting I) (hL : LooksAt base I) (hb : Keeps base m) (hP : ∀ c, DefUnder I (V c) (P c)) (hs : SysIs I m s s')
    (hl : s'.lexer = some (textLexer lex)) (ts : List Bytes) :
    (∀ s2' os', executeAll P ops catching fuel s' (ts.map .line) = .ok (s2', os') →
      ∃ m2 s2, eachLine lex V ops catching fuel ⟨m, s⟩ ts = .ok (⟨m2, s2⟩, os'.map shownText) ∧ SysIs I m2 s2 s2' ∧ Keeps base m2) ∧
    (executeAll P ops catching fuel s' (ts.map .line) = .diverge → eachLine lex V ops catching fuel ⟨m, s⟩ ts = .diverge) := by
  have h := eachLine_sim (ops := ops) (catching := catching) (lex := lex) (fuel := fuel) hI hL hP ts m s s' hb hs hl
  refine ⟨fun s2' os' ho => ?_, fun hd => ?_⟩
  · rw [ho] at h
    obtain ⟨⟨⟨m2, s2⟩, os⟩, h1, h2, h3, h4⟩ := h
    dsimp only at h4
    subst h4
    exact ⟨m2, s2, h1, h2, h3⟩
  · rw [hd] at h
    exact h

/-- **C95.** In particular if nothing is kept: every program on texts, with a console that destroys its lines. -/
theorem C95_nothing_kept {cfg : LexCfg} {s : Sys S W C D} (P : C → FunctorDef W C D) (hl : s.lexer = some (lexRead cfg)) (ts : List Bytes) :
    ∀ s2 os, executeAll P ops catching fuel s (ts.map .line) = .ok (s2, os) →
      ∃ m2, eachLine (lexParse cfg) (fun c => liftDef (P c)) ops catching fuel ⟨m, s⟩ ts = .ok (⟨m2, s2⟩, os.map shownText) ∧ Keeps m m2 := by
  intro s2 os ho
  obtain ⟨m2, s2', h1, h2, h3⟩ := (C95_each_line_partial (I := SameState) (base := m) sameState_lasting (fun _ _ _ _ _ _ h => h) (.refl m)
    (fun c => liftDef_is (P c)) (.refl m s) hl ts).1 s2 os ho
  cases h2.eq
  exact ⟨m2, h1, h3⟩

/-- **C95.** The two examples that keep views are such programs: they keep nothing but views of their arguments, and look at nothing else. -/
theorem C95_examples (pl : Platform) (sz : IntType) :
    (Lasting ItemsAre ∧ ∀ c, DefUnder ItemsAre (inventory pl sz c) (inventoryText pl sz c)) ∧
    (Lasting EntitiesAre ∧ ∀ c, DefUnder EntitiesAre (advanced c) (advancedText c)) :=
  ⟨⟨items_lasting, inventory_is pl sz⟩, ⟨entities_lasting, advanced_is⟩⟩

/-! ## Variables made by a command -/

section Variables

variable {ops : RegOps S EntCode Nat} {s s2 : Sys S (Entities Bytes) EntCode Nat} {n v t x : Bytes} {na : List Named} {cmd : Command EntCode Nat}
  {i a b : Nat} {e : Entity} {f : Field} {o : ExecOut}

/-- **C95.** Where `entities.create_entity_variable` is defined, it registers four commands, whose functions have captured the second argument, and
does nothing else. -/
theorem C95_create_partial (hn : n ≠ []) (hf : ops.find s.reg n = .ok (some cmd)) (hc : cmd.functors = [⟨a, .create, b⟩])
    (h : execute advancedText ops catching (fuel + 1) s (.input ⟨n, [⟨[v]⟩, ⟨[t]⟩], na⟩) = .ok (s2, o)) :
    s2.user = ⟨s.user.entities, s.user.ids ++ [t]⟩ ∧ o = .ok ⟨⟨n, [⟨[v]⟩, ⟨[t]⟩], na⟩, [], none, []⟩ ∧
    s2.history = s.history ++
      [.added v [⟨s.next, .whole, s.user.ids.length⟩, ⟨s.next + 1, .wholeSet, s.user.ids.length⟩],
       .added (v ++ lit ".id") [⟨s.next + 2, .field .id, s.user.ids.length⟩, ⟨s.next + 3, .fieldSet .id, s.user.ids.length⟩],
       .added (v ++ lit ".name") [⟨s.next + 4, .field .name, s.user.ids.length⟩, ⟨s.next + 5, .fieldSet .name, s.user.ids.length⟩],
       .added (v ++ lit ".payload") [⟨s.next + 6, .field .payload, s.user.ids.length⟩, ⟨s.next + 7, .fieldSet .payload, s.user.ids.length⟩]] := by
  by_cases ha : a ∈ s.freed
  · simp [execute, nested, Nested.exec, executeInput, executeCtx, hn, hf, hc, selectLoop, arity, advancedText, invokeFunctor, ha] at h
  rw [execute_call (P := advancedText) (f := ⟨a, .create, b⟩) (es := (.ok v, .ok t, ())) (args := (v, t, ())) hn hf (by rw [hc]; rfl) ha rfl rfl rfl] at h
  obtain ⟨⟨s3, c3, r3⟩, h1, h2⟩ := Res.bind_eq_ok.1 h
  simp only [advancedText, Prog.run, ha, if_false] at h1
  obtain ⟨hu, hk, hh, rfl, rfl⟩ := run_addAllText () _ h1
  cases h2
  exact ⟨hu, rfl, hh⟩

/-- **C95.** A member variable made for the text `t` shows the member of the first entity with this id, as it is at that time. If there is no
such entity, a null pointer is dereferenced. -/
theorem C95_read (hn : n ≠ []) (hf : ops.find s.reg n = .ok (some cmd)) (hc : cmd.functors = [⟨a, .field f, i⟩, ⟨b, .fieldSet f, i⟩])
    (ha : a ∉ s.freed) (hi : s.user.ids[i]? = some t) :
    execute advancedText ops catching (fuel + 1) s (.input ⟨n, [], na⟩) =
      match s.user.entities.find? (fun e => e.id = t) with
      | none => .ub .nullDeref
      | some e => .ok ({ s with calls := s.calls ++ [(0, a)] }, .ok ⟨⟨n, [], na⟩, [], some (f.of e), []⟩) := by
  rw [execute_call (P := advancedText) (f := ⟨a, .field f, i⟩) (es := ()) (args := ()) hn hf (by rw [hc]; rfl) ha rfl rfl rfl, ← lookup_eq]
  by_cases he : s.user.entities = []
  · simp [advancedText, fieldGetText, captureThenText, Prog.run, ha, hi, he, lookup]
  · cases hl : lookup t s.user.entities with
    | none => simp [advancedText, fieldGetText, captureThenText, Prog.run, ha, hi, he, hl]
    | some e =>
      simp [advancedText, fieldGetText, captureThenText, Prog.run, ha, hi, he, hl, storeReturn, CallCtx.hasErrors, ExecResult.empty, handle, textOf]

/-- **C95.** Setting the name or the payload changes the first entity with this id, and nothing else, and shows the new text. -/
theorem C95_write (hn : n ≠ []) (hf : ops.find s.reg n = .ok (some cmd)) (hc : cmd.functors = [⟨a, .field f, i⟩, ⟨b, .fieldSet f, i⟩])
    (hb : b ∉ s.freed) (hi : s.user.ids[i]? = some t) (hid : f ≠ .id) :
    execute advancedText ops catching (fuel + 1) s (.input ⟨n, [⟨[x]⟩], na⟩) =
      match s.user.entities.findIdx? (fun e => e.id = t) with
      | none => .ub .nullDeref
      | some j => .ok ({ s with calls := s.calls ++ [(0, b)], user := { s.user with entities := s.user.entities.modify j (f.put x) } },
          .ok ⟨⟨n, [⟨[x]⟩], na⟩, [], some x, []⟩) := by
  cases f with
  | id => exact absurd rfl hid
  | name =>
    rw [execute_call (P := advancedText) (f := ⟨b, .fieldSet .name, i⟩) (es := (.ok x, ())) (args := (x, ())) hn hf (by rw [hc]; rfl) hb rfl rfl rfl]
    have hr := run_write (ops := ops) (ne := nested advancedText ops catching fuel 1) (self := ⟨b, .fieldSet .name, i⟩) (f := .name) (x := x) (t := t)
      (s := { s with calls := s.calls ++ [(0, b)] }) (c := ⟨⟨n, [⟨[x]⟩], na⟩, ExecResult.empty⟩) (fun _ => rfl) (fun _ => rfl) hb hi
    refine (congrArg (fun r => Res.bind r _) hr).trans ?_
    dsimp only
    cases s.user.entities.findIdx? (fun e => e.id = t) <;> rfl
  | payload =>
    rw [execute_call (P := advancedText) (f := ⟨b, .fieldSet .payload, i⟩) (es := (.ok x, ())) (args := (x, ())) hn hf (by rw [hc]; rfl) hb rfl rfl rfl]
    have hr := run_write (ops := ops) (ne := nested advancedText ops catching fuel 1) (self := ⟨b, .fieldSet .payload, i⟩) (f := .payload) (x := x) (t := t)
      (s := { s with calls := s.calls ++ [(0, b)] }) (c := ⟨⟨n, [⟨[x]⟩], na⟩, ExecResult.empty⟩) (fun _ => rfl) (fun _ => rfl) hb hi
    refine (congrArg (fun r => Res.bind r _) hr).trans ?_
    dsimp only
    cases s.user.entities.findIdx? (fun e => e.id = t) <;> rfl

/-- **C95.** The id and the entity as a whole cannot be set: an error is reported and nothing changes. -/
theorem C95_read_only (hn : n ≠ []) (hf : ops.find s.reg n = .ok (some cmd)) {w : Value}
    (hc : cmd.functors = [⟨a, .whole, i⟩, ⟨b, .wholeSet, i⟩] ∨ cmd.functors = [⟨a, .field .id, i⟩, ⟨b, .fieldSet .id, i⟩])
    (hi : s.user.ids[i]? = some t) (h : execute advancedText ops catching (fuel + 1) s (.input ⟨n, [w], na⟩) = .ok (s2, o)) :
    s2 = { s with calls := s.calls ++ [(0, b)] } ∧ o = .ok ⟨⟨n, [w], na⟩, [lit "This property is read-only"], none, []⟩ := by
  have hb : b ∉ s.freed := by
    intro hb
    rcases hc with hc | hc <;>
      simp [execute, nested, Nested.exec, executeInput, executeCtx, hn, hf, hc, selectLoop, arity, advancedText, invokeFunctor, hb] at h
  rcases hc with hc | hc
  · rw [execute_call (P := advancedText) (f := ⟨b, .wholeSet, i⟩) (es := (.ok w, ())) (args := (w, ())) hn hf (by rw [hc]; rfl) hb rfl rfl rfl] at h
    by_cases he : s.user.entities = []
    · simp [advancedText, captureThenText, Prog.run, hb, hi, he, storeReturn, CallCtx.reportError, CallCtx.hasErrors, ExecResult.empty, handle] at h
      exact ⟨h.1.symm, h.2.symm⟩
    · simp [advancedText, captureThenText, Prog.run, hb, hi, he, storeReturn, CallCtx.reportError, CallCtx.hasErrors, ExecResult.empty, handle] at h
      exact ⟨h.1.symm, h.2.symm⟩
  · rw [execute_call (P := advancedText) (f := ⟨b, .fieldSet .id, i⟩) (es := (.ok w, ())) (args := (w, ())) hn hf (by rw [hc]; rfl) hb rfl rfl rfl] at h
    by_cases he : s.user.entities = []
    · simp [advancedText, fieldGetText, captureThenText, Prog.run, hb, hi, he] at h
    · cases hl : lookup t s.user.entities with
      | none => simp [advancedText, fieldGetText, captureThenText, Prog.run, hb, hi, he, hl] at h
      | some e =>
        simp [advancedText, fieldGetText, captureThenText, Prog.run, hb, hi, he, hl, storeReturn, CallCtx.reportError, CallCtx.hasErrors, ExecResult.empty,
          handle] at h
        exact ⟨h.1.symm, h.2.symm⟩

end Variables

/-! ## Consoles that reuse or destroy their lines -/

namespace Vw

/-- The registry of the witnesses: an association list. -/
def keptOps {C D : Type} : RegOps (List (Command C D)) C D where
  find l n := .ok (l.find? (fun c => c.name = n))
  put l _ c := .ok (c :: l)
  erase l n := .ok (l.filter (fun c => c.name ≠ n))
  clear _ := []
  all l := l

/-- A platform with `long` of 64 bits. -/
def keptPlatform : Platform := ⟨true, true, true, true⟩

/-- The inventory (NamedExample.cpp 178-180), with given items. -/
def invSys (W : Type) (items : W) : Sys (List (Command InvCode Unit)) W InvCode Unit :=
  ⟨[⟨lit "inventory.list", [⟨0, .list, ()⟩]⟩, ⟨lit "inventory.add", [⟨1, .add, ()⟩]⟩], some (lexRead (.default true)), items, [], 2, [], []⟩

/-- Entities (compare AdvancedExample.cpp 124-127). -/
def someEntities : List Entity :=
  [⟨lit "player", lit "Player", lit "I am a player"⟩, ⟨lit "npc1", lit "NPC 1", lit "A pretty weak NPC"⟩, ⟨lit "gunner", lit "Gunner", lit "Armed"⟩]

/-- The example with these entities. -/
def entSys (N : Type) : Sys (List (Command EntCode Nat)) (Entities N) EntCode Nat :=
  ⟨[⟨lit "rename", [⟨0, .rename, 0⟩]⟩, ⟨lit "create", [⟨1, .create, 0⟩]⟩, ⟨lit "list", [⟨2, .list, 0⟩]⟩], some (lexRead (.default true)),
    ⟨someEntities, []⟩, [], 3, [], []⟩

/-- What a console shows that executes the lines on texts. -/
abbrev textShown {W C D : Type} (P : C → FunctorDef W C D) (s : Sys (List (Command C D)) W C D) (ts : List Bytes) : Res (List ShownOut) :=
  (executeAll P keptOps true 3 s (ts.map .line)).bind fun p => .ok (p.2.map shownText)

/-- With texts that stay in place. -/
abbrev inPlaceShown {W C D : Type} (V : C → VDef W C D) (s : Sys (List (Command C D)) W C D) (ts : List Bytes) : Res (List ShownOut) :=
  (inPlace (lexParse (.default true)) V keptOps true 3 ⟨[], s⟩ ts).bind fun p => .ok (p.2.map VOut.shown)

/-- With lines that are destroyed. -/
abbrev eachLineShown {W C D : Type} (V : C → VDef W C D) (s : Sys (List (Command C D)) W C D) (ts : List Bytes) : Res (List ShownOut) :=
  (eachLine (lexParse (.default true)) V keptOps true 3 ⟨[], s⟩ ts).bind fun p => .ok p.2

/-- With one buffer for all lines. -/
abbrev oneBufferShown {W C D : Type} (V : C → VDef W C D) (s : Sys (List (Command C D)) W C D) (ts : List Bytes) : Res (List ShownOut) :=
  (oneBuffer (lexParse (.default true)) V keptOps true 3 0 ⟨[some []], s⟩ ts).bind fun p => .ok p.2

end Vw

/-- **C95 is false for views of lines that the console destroys.** The inventory of NamedExample keeps views of the names, so listing an item
that was added by an earlier line of a console like that of main.cpp reads a destroyed string; the variables of AdvancedExample keep views of the ids. -/
theorem C95_console_false :
    eachLineShown (inventory keptPlatform .uint) (invSys _ []) [lit "inventory.add 8 pistol", lit "inventory.list"] = .ub .useAfterFree ∧
    (∃ r, textShown (inventoryText keptPlatform .uint) (invSys _ []) [lit "inventory.add 8 pistol", lit "inventory.list"] = .ok r) ∧
    eachLineShown advanced (entSys Ref) [lit "create p player", lit "p.name"] = .ub .useAfterFree ∧
    (∃ r, textShown advancedText (entSys Bytes) [lit "create p player", lit "p.name"] = .ok r) := by
  refine ⟨by decide +kernel, ⟨_, rfl⟩, by decide +kernel, ⟨_, rfl⟩⟩

/-- **C95 is false if the lines are read into one buffer**: a view may end behind the new line, or silently become a view of something else.
Here the variable made for the player shows, and then changes, the name of another entity. -/
theorem C95_one_buffer_false :
    oneBufferShown advanced (entSys Ref) [lit "create p player", lit "p.name"] = .ub .oobRead ∧
    oneBufferShown advanced (entSys Ref) [lit "create p player", lit "p.name x=gunner", lit "p.name X gunner=1", lit "list"] =
      .ok [.shown ⟨[], none, []⟩, .shown ⟨[], some (lit "Gunner"), []⟩, .shown ⟨[], some (lit "X"), []⟩, .shown ⟨[], none, lit
        "ID\tName\tPayload\n--\t----\t-------\nplayer\tPlayer\tI am a player\nnpc1\tNPC 1\tA pretty weak NPC\ngunner\tX\tArmed\n"⟩] ∧
    textShown advancedText (entSys Bytes) [lit "create p player", lit "p.name x=gunner", lit "p.name X gunner=1", lit "list"] =
      .ok [.shown ⟨[], none, []⟩, .shown ⟨[], some (lit "Player"), []⟩, .shown ⟨[], some (lit "X"), []⟩, .shown ⟨[], none, lit
        "ID\tName\tPayload\n--\t----\t-------\nplayer\tX\tI am a player\nnpc1\tNPC 1\tA pretty weak NPC\ngunner\tGunner\tArmed\n"⟩] := by
  refine ⟨?_, ?_, ?_⟩ <;> decide +kernel

/-- **C95.** Also with texts in place, the entities are not always defined: a variable made for an id that no entity has reads a null pointer, and
making a variable with the name of the command that makes variables destroys the function that is running. -/
theorem C95_create_false :
    inPlaceShown advanced (entSys Ref) [lit "create p nobody"] = .ok [.shown ⟨[], none, []⟩] ∧
    inPlaceShown advanced (entSys Ref) [lit "create p nobody", lit "p"] = .ok [.shown ⟨[], none, []⟩, .shown ⟨[], some (lit "null"), []⟩] ∧
    inPlaceShown advanced (entSys Ref) [lit "create p nobody", lit "p.name"] = .ub .nullDeref ∧
    inPlaceShown advanced (entSys Ref) [lit "create create player"] = .ub .useAfterFree := by
  refine ⟨?_, ?_, ?_, ?_⟩ <;> decide +kernel

/-! ## Examples -/

/-- The commands of NamedExample.cpp 188-198, partly. -/
example : inPlaceShown (inventory keptPlatform .uint) (invSys _ [])
      [lit "inventory.add 8 pistol", lit "inventory.add 9 dollar type=Currency amount=10", lit "inventory.list name = ol", lit "inventory.list min_amount=2"] =
    .ok [.shown ⟨[], none, []⟩, .shown ⟨[], none, []⟩,
      .shown ⟨[], none, lit "ID\tName\tAmount\tSource\tType\n--\t----\t------\t------\t----\n8\tpistol\t1\tDebug\tWeapon\n9\tdollar\t10\tDebug\tCurrency\n"⟩,
      .shown ⟨[], none, lit "ID\tName\tAmount\tSource\tType\n--\t----\t------\t------\t----\n9\tdollar\t10\tDebug\tCurrency\n"⟩] := by
  decide +kernel

/-- The commands of AdvancedExample.cpp 164-171, partly. -/
example : inPlaceShown advanced (entSys Ref)
      [lit "create pe player", lit "pe", lit "pe.id", lit "pe.name", lit "rename player Enemy", lit "pe.name", lit "pe.id x", lit "pe.payload 'I am'",
       lit "rename nobody x"] =
    .ok [.shown ⟨[], none, []⟩, .shown ⟨[], some (lit "EntityId{player}"), []⟩, .shown ⟨[], some (lit "player"), []⟩,
      .shown ⟨[], some (lit "Player"), []⟩, .shown ⟨[], none, []⟩, .shown ⟨[], some (lit "Enemy"), []⟩,
      .shown ⟨[lit "This property is read-only"], none, []⟩, .shown ⟨[], some (lit "I am"), []⟩,
      .shown ⟨[lit "Failed to find entity 'nobody'"], none, []⟩] := by
  decide +kernel

/-- The theorem for this program, in any memory and with any registry. -/
example {S : Type} (ops : RegOps S EntCode Nat) (reg : S) (m : Mem) (fuel : Nat) (ts : List Bytes) :=
  C95_in_place_partial (ops := ops) (catching := true) (lex := lexParse (.default true)) (fuel := fuel) (m := m)
    (s := ⟨reg, some (lexRead (.default true)), ⟨someEntities, []⟩, [], 3, [], []⟩)
    (s' := ⟨reg, some (lexRead (.default true)), ⟨someEntities, []⟩, [], 3, [], []⟩)
    entities_lasting advanced_is ⟨⟨rfl, .nil⟩, rfl, rfl, rfl, rfl, rfl, rfl⟩ rfl ts

end Coil
