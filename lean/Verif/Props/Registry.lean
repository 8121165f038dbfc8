import Verif.Proofs.Isolation
import Verif.Props.Exec

/-!
# Properties of the registry (C32, C40, C42, C47, C48)

The registry of the code is `mapOps false`; `mapOps true` has the missing line of `erase` added. A state of the program
is `Reached` when it results from a new `Bindings` object by any list of actions (`Action`), in which the executed functions may
themselves change the registry and execute commands. `exceeds` is the load-factor comparison (see C24).
-/

namespace Coil
open Spec

namespace Demo

/-- What the surrounding program does, from a new registry on. -/
def after (fixed : Bool) (acts : List (Action Int Nat Nat)) : Res (Sys Reg Int Nat Nat) := do
  let s ← newBindings true (some (lexRead (LexCfg.default true))) 10
  actAll P (mapOps fixed true overOne) true 5 s acts

/-- What a name stands for then: name, and code and data of each function. -/
def stands (fixed : Bool) (acts : List (Action Int Nat Nat)) (name : String) : Res (Option (Bytes × List (Nat × Nat))) := do
  let s ← after fixed acts
  let c ← bindingsGet (mapOps fixed true overOne) s (lit name)
  .ok (c.map fun c => (c.name, c.functors.map fun f => (f.code, f.data)))

/-- Executing a line then: the program afterwards and the result. -/
def thenExec (acts : List (Action Int Nat Nat)) (t : String) : Res (Sys Reg Int Nat Nat × ExecOut) := do
  let s ← after false acts
  execute P ops true 5 s (.line (lit t))

/-- Commands are added, executed, replaced and removed, by the program and by commands. -/
def acts : List (Action Int Nat Nat) :=
  [.add (lit "add") [(0, 0), (1, 0)], .add (lit "safe") [(8, 42)], .exec (.line (lit "add 7")), .add (lit "two") [(1, 1)],
    .exec (.line (lit "safe")), .add (lit "two") [(2, 2)], .exec (.line (lit "nonsense"))]

end Demo

section

variable {W C D : Type} {P : C → FunctorDef W C D} {fixed charSigned : Bool} {exceeds : Nat → Nat → Bool}
  {catching : Bool} {fuel depth : Nat} {lexer : Option Lexer} {w : W} {acts : List (Action W C D)}
  {s s' s1 s2 : Sys (UMap Bytes (Command C D)) W C D} {name : Bytes}

/-- The state results from a new registry by the actions. -/
def Reached (P : C → FunctorDef W C D) (fixed charSigned : Bool) (exceeds : Nat → Nat → Bool) (catching : Bool)
    (acts : List (Action W C D)) (s : Sys (UMap Bytes (Command C D)) W C D) : Prop :=
  ∃ fuel lexer w s0, newBindings charSigned lexer w = .ok s0 ∧
    actAll P (mapOps fixed charSigned exceeds) catching fuel s0 acts = .ok s

theorem newBindings_ok (h : newBindings charSigned lexer w = .ok s) :
    ∃ m, UMap.create (djb2 charSigned) 1 = .ok m ∧ m.entries = [] ∧ s = ⟨m, lexer, w, [], 0, [], []⟩ := by
  obtain ⟨m, h1, _, h2⟩ := UMap.create_spec (V := Command C D) (djb2 charSigned) (n := 1) (by omega)
  simp only [newBindings, h1, Res.bind_ok, Res.ok.injEq] at h
  exact ⟨m, h1, h2, h.symm⟩

theorem Reached.owned (h : Reached P fixed charSigned exceeds catching acts s) : Owned UMap.entries s := by
  obtain ⟨fuel, lexer, w, s0, h0, h⟩ := h
  refine (owned_preserved (mapLaws fixed charSigned exceeds)).actAll (fun s l o => owned_setLexer l o) h ?_
  obtain ⟨m, _, h2, rfl⟩ := newBindings_ok h0
  refine ⟨?_, ?_, ?_, ?_, ?_, ?_⟩ <;> simp [h2, entIds]

theorem Reached.follows (h : Reached P fixed charSigned exceeds catching acts s) :
    FollowsHistory fixed charSigned exceeds s := by
  obtain ⟨fuel, lexer, w, s0, h0, h⟩ := h
  refine (follows_preserved (fixed := fixed) (charSigned := charSigned) (exceeds := exceeds)).actAll
    (fun _ _ o => o) h ?_
  obtain ⟨m, h1, h2, rfl⟩ := newBindings_ok h0
  simp [FollowsHistory, mapAfter, h1, UMap.runOps]

theorem Reached.get (hex : ∀ b, 0 < b → exceeds 1 b = false)
    (h : Reached P fixed charSigned exceeds catching acts s) (hok : fixed = true ∨ SafeHistory s.history) (name : Bytes) :
    bindingsGet (mapOps fixed charSigned exceeds) s name = .ok (dictAfter (s.history.map asDictOp) name) := by
  obtain ⟨m, h1, _, h2, _⟩ := mapAfter_spec hex (buckets := 1) (by omega) (hash := djb2 charSigned) (s.history.map asDictOp) hok
  have := h.follows
  unfold FollowsHistory at this
  rw [this] at h1
  cases h1
  exact h2.1 name

/-! ## C32 -/

/-- **C32 (both codes).** In the states where the map is a dictionary, a name that was added, and neither removed since nor
added again nor cleared, stands for exactly the functions it was added with; all other names stand for
nothing. Missing for the full claim about the code as it is: the histories that are not safe, for which it is
false. -/
theorem C32_lookup_partial (hex : ∀ b, 0 < b → exceeds 1 b = false)
    (h : Reached P fixed charSigned exceeds catching acts s) (hok : fixed = true ∨ SafeHistory s.history) :
    (∀ name fs, Registered s.history name fs →
      bindingsGet (mapOps fixed charSigned exceeds) s name = .ok (some ⟨name, fs⟩)) ∧
    (∀ name, (∀ fs, ¬ Registered s.history name fs) →
      bindingsGet (mapOps fixed charSigned exceeds) s name = .ok none) := by
  constructor
  · intro name fs hr
    rw [h.get hex hok, (dictAfter_registered _ _ ⟨name, fs⟩).2 ⟨rfl, hr⟩]
  · intro name hr
    rw [h.get hex hok, (dictAfter_missing _ _).2 hr]

/-- **C32 (code as it is)**, with a simpler condition: a new command is added or the registry cleared between any two
removals. -/
theorem C32_lookup_spaced_partial (hex : ∀ b, 0 < b → exceeds 1 b = false)
    (h : Reached P false charSigned exceeds catching acts s) (hs : SpacedHistory s.history) :
    (∀ name fs, Registered s.history name fs →
      bindingsGet (mapOps false charSigned exceeds) s name = .ok (some ⟨name, fs⟩)) ∧
    (∀ name, (∀ fs, ¬ Registered s.history name fs) →
      bindingsGet (mapOps false charSigned exceeds) s name = .ok none) :=
  C32_lookup_partial hex h (.inr (UMap.safe_of_spaced UMap.lists_nil (by simp) _ hs))

/-- **C32 (code as it is), always.** In every state that can be reached, also when the map is damaged, what is found
under a name was once added under that name, with these functions, and none of its function objects has been destroyed. -/
theorem C32_found_was_added (h : Reached P fixed charSigned exceeds catching acts s) {cmd : Command C D}
    (hf : bindingsGet (mapOps fixed charSigned exceeds) s name = .ok (some cmd)) :
    cmd.name = name ∧ RegEvent.added name cmd.functors ∈ s.history ∧ ∀ f ∈ cmd.functors, f.id ∉ s.freed := by
  have hm := (mapLaws fixed charSigned exceeds).find hf
  refine ⟨h.owned.name _ _ hm, h.owned.added _ _ hm, fun f hfm => ?_⟩
  exact h.owned.live _ (mem_entIds.2 ⟨name, cmd, hm, List.mem_map_of_mem hfm⟩)

/-- **C32.** Executing uses the same functions: the first one of them with as many parameters as there are arguments is
called. -/
theorem C32_executed_partial (hex : ∀ b, 0 < b → exceeds 1 b = false)
    (h : Reached P fixed charSigned exceeds catching acts s) (hok : fixed = true ∨ SafeHistory s.history)
    {fs : List (Inst C D)} {f : Inst C D} {input : Input} {req : Request} {out : ExecOut}
    (hr : Registered s.history input.name fs) (hn : input.name ≠ []) (hm : Means s.lexer req input)
    (hs : FirstOfArity P input.arguments.length fs f) {xs : Args (P f.code).params}
    (hx : ConvertTo (P f.code).params input.arguments xs)
    (he : execute P (mapOps fixed charSigned exceeds) catching fuel s req = .ok (s', out)) :
    ∃ deeper, s'.calls = s.calls ++ (0, f.id) :: deeper ∧ ∀ c ∈ deeper, 0 < c.1 := by
  have hg := (C32_lookup_partial hex h hok).1 _ _ hr
  obtain ⟨deeper, _, _, h1, h2, _⟩ := C26_one_call hm hn hg hs hx he
  exact ⟨deeper, h1, h2⟩

theorem actAll_concat {S : Type} {ops : RegOps S C D} {s : Sys S W C D} (acts : List (Action W C D)) (a : Action W C D) :
    actAll P ops catching fuel s (acts ++ [a]) =
      (actAll P ops catching fuel s acts >>= fun s' => act P ops catching fuel s' a) := by
  induction acts generalizing s with
  | nil =>
    simp only [List.nil_append, actAll, Res.bind_ok]
    cases act P ops catching fuel s a <;> rfl
  | cons b acts ih =>
    simp only [List.cons_append, actAll]
    cases act P ops catching fuel s b with
    | ok s1 => simp only [Res.bind_ok]; exact ih
    | ub w => rfl
    | diverge => rfl

theorem lastAdded_concat (acts : List (Action W C D)) (a : Action W C D) (name : Bytes) (fs : List (C × D)) :
    LastAdded (acts ++ [a]) name fs ↔ a = .add name fs ∨ (¬ Action.Touches name a ∧ LastAdded acts name fs) := by
  constructor
  · rintro ⟨h1, h2, e, hn⟩
    rcases List.eq_nil_or_concat h2 with rfl | ⟨h2', x, rfl⟩
    · have := List.append_inj' e rfl
      simp only [List.cons.injEq, and_true] at this
      exact .inl this.2
    · simp only [List.concat_eq_append] at e hn
      have e' : acts ++ [a] = (h1 ++ .add name fs :: h2') ++ [x] := by rw [e]; simp
      obtain ⟨rfl, e2⟩ := List.append_inj' e' rfl
      simp only [List.cons.injEq, and_true] at e2
      subst e2
      exact .inr ⟨hn a (by simp), h1, h2', rfl, fun ev' h' => hn ev' (List.mem_append_left _ h')⟩
  · rintro (rfl | ⟨hn, h1, h2, rfl, h3⟩)
    · exact ⟨acts, [], by simp, by simp⟩
    · refine ⟨h1, h2 ++ [a], by simp, ?_⟩
      intro ev' h'
      rcases List.mem_append.1 h' with h' | h'
      · exact h3 _ h'
      · simp only [List.mem_singleton] at h'
        subst h'
        exact hn

/-- **C32**, for functions that do not change the registry themselves: the history is what the surrounding program did. A name
is registered exactly with the functions of its last `add` in the list of actions. -/
theorem C32_history (hP : ∀ c xs, KeepsRegistry ((P c).body xs))
    (h : Reached P fixed charSigned exceeds catching acts s) :
    (∀ name fs, LastAdded acts name fs → ∃ insts, Registered s.history name insts ∧
      insts.map (fun f => (f.code, f.data)) = fs) ∧
    (∀ name insts, Registered s.history name insts →
      LastAdded acts name (insts.map fun f => (f.code, f.data))) := by
  obtain ⟨fuel, lexer, w, s0, h0, h⟩ := h
  induction acts using snoc_induction generalizing s with
  | nil =>
    obtain ⟨m, h1, h2, rfl⟩ := newBindings_ok h0
    cases h
    constructor
    · rintro name fs ⟨a1, a2, e, _⟩
      simp at e
    · rintro name fs ⟨a1, a2, e, _⟩
      simp at e
  | snoc acts a ih =>
    rw [actAll_concat] at h
    obtain ⟨s1, h1, h2⟩ := Res.bind_eq_ok.1 h
    obtain ⟨i1, i2⟩ := ih h1
    have key : (∃ ev, s.history = s1.history ++ [ev] ∧ (∀ n, Touches n ev ↔ Action.Touches n a) ∧
          (∀ n fs, a = .add n fs → ∃ insts, ev = .added n insts ∧ insts.map (fun f => (f.code, f.data)) = fs) ∧
          (∀ n insts, ev = .added n insts → a = .add n (insts.map fun f => (f.code, f.data)))) ∨
        (s.history = s1.history ∧ ∀ n, ¬ Action.Touches n a) := by
      cases a with
      | add n fs =>
        simp only [act, bindingsAdd, Res.bind_eq_ok, Res.ok.injEq] at h2
        obtain ⟨old, _, reg, _, rfl⟩ := h2
        refine .inl ⟨_, rfl, fun n' => Iff.rfl, ?_, ?_⟩
        · intro n' fs' e
          cases e
          exact ⟨_, rfl, allocate_defs _ _⟩
        · intro n' insts e
          cases e
          rw [allocate_defs]
      | remove n =>
        simp only [act, bindingsRemove, Res.bind_eq_ok, Res.ok.injEq] at h2
        obtain ⟨old, _, reg, _, rfl⟩ := h2
        refine .inl ⟨_, rfl, fun n' => Iff.rfl, ?_, ?_⟩
        · intro n' fs' e; cases e
        · intro n' fs' e; cases e
      | clear =>
        cases h2
        refine .inl ⟨_, rfl, fun n' => Iff.rfl, ?_, ?_⟩
        · intro n' fs' e; cases e
        · intro n' fs' e; cases e
      | setLexer l => cases h2; exact .inr ⟨rfl, fun _ => id⟩
      | exec req =>
        simp only [act, Res.bind_eq_ok] at h2
        obtain ⟨⟨s2, o⟩, h3, h4⟩ := h2
        cases h4
        exact .inr ⟨(keeps_exec hP fuel 0 _ _ _ _ h3).1, fun _ => id⟩
      | setUser w => cases h2; exact .inr ⟨rfl, fun _ => id⟩
    rcases key with ⟨ev, hh, ht, k1, k2⟩ | ⟨hh, ht⟩
    · constructor
      · intro name fs hl
        rw [hh]
        rcases (lastAdded_concat ..).1 hl with e | ⟨e1, e2⟩
        · obtain ⟨insts, e3, e4⟩ := k1 _ _ e
          exact ⟨insts, (registered_concat ..).2 (.inl e3), e4⟩
        · obtain ⟨insts, e3, e4⟩ := i1 _ _ e2
          exact ⟨insts, (registered_concat ..).2 (.inr ⟨fun h => e1 ((ht _).1 h), e3⟩), e4⟩
      · intro name insts hr
        rw [hh] at hr
        rcases (registered_concat ..).1 hr with e | ⟨e1, e2⟩
        · exact (lastAdded_concat ..).2 (.inl (k2 _ _ e))
        · exact (lastAdded_concat ..).2 (.inr ⟨fun h => e1 ((ht _).2 h), i2 _ _ e2⟩)
    · constructor
      · intro name fs hl
        rw [hh]
        rcases (lastAdded_concat ..).1 hl with rfl | ⟨e1, e2⟩
        · exact absurd rfl (ht name)
        · exact i1 _ _ e2
      · intro name insts hr
        rw [hh] at hr
        exact (lastAdded_concat ..).2 (.inr ⟨ht _, i2 _ _ hr⟩)

/-- **C32.** Registry operations on a map that is a dictionary are defined. -/
theorem C32_operations_defined_partial (hex : ∀ b, 0 < b → exceeds 1 b = false)
    (h : Reached P fixed charSigned exceeds catching acts s) :
    (∀ name fs, fixed = true ∨ SafeHistory s.history →
      (bindingsAdd (mapOps fixed charSigned exceeds) s name fs).IsOk) ∧
    (∀ name, fixed = true ∨ SafeHistory (s.history ++ [.removed name]) →
      (bindingsRemove (mapOps fixed charSigned exceeds) s name).IsOk) := by
  have hrun : ∀ ev : RegEvent C D, (fixed = true ∨ SafeHistory (s.history ++ [ev])) →
      ∃ m', UMap.applyOp fixed (djb2 charSigned) exceeds s.reg (asDictOp ev) = .ok m' := by
    intro ev hok
    obtain ⟨m, h1, _, _, _⟩ := mapAfter_spec hex (buckets := 1) (by omega) (hash := djb2 charSigned)
      ((s.history ++ [ev]).map asDictOp) hok
    have hf := h.follows
    unfold FollowsHistory at hf
    unfold mapAfter at h1 hf
    obtain ⟨m0, g1, g2⟩ := Res.bind_eq_ok.1 hf
    rw [g1, Res.bind_ok, List.map_append, List.map_cons, List.map_nil, runOps_concat, g2, Res.bind_ok] at h1
    exact ⟨m, h1⟩
  have safe_add : ∀ name (fs : List (Inst C D)), fixed = true ∨ SafeHistory s.history →
      fixed = true ∨ SafeHistory (s.history ++ [.added name fs]) := by
    intro name fs hok
    refine hok.imp id fun hsafe => ?_
    unfold SafeHistory at hsafe ⊢
    rw [List.map_append]
    have : ∀ (a : List (DictOp Bytes (Command C D))) ph l, SafeFrom ph l a →
        SafeFrom ph l (a ++ [.put name ⟨name, fs⟩]) := by
      intro a
      induction a with
      | nil => intro ph l _; exact ⟨trivial, trivial⟩
      | cons x a ih => intro ph l h; exact ⟨h.1, ih _ _ h.2⟩
    exact this _ _ _ hsafe
  constructor
  · intro name fs hok
    obtain ⟨m', hm⟩ := hrun _ (safe_add name (allocate s.next fs) hok)
    have hg := h.get hex hok name
    simp only [bindingsGet] at hg
    simp only [asDictOp, UMap.applyOp] at hm
    simp only [bindingsAdd, hg, Res.bind_ok]
    simp only [mapOps, hm, Res.bind_ok]
    trivial
  · intro name hok
    obtain ⟨m', hm⟩ := hrun _ hok
    have hg := h.get hex (hok.imp id fun hsafe => by
      unfold SafeHistory at hsafe ⊢
      rw [List.map_append] at hsafe
      exact safeFrom_prefix hsafe) name
    simp only [bindingsGet] at hg
    simp only [asDictOp, UMap.applyOp] at hm
    simp only [bindingsRemove, hg, Res.bind_ok]
    simp only [mapOps, hm, Res.bind_ok]
    trivial

/-! ## C48 -/

/-- **C48.** What was registered under a name keeps its name, its numbers of parameters, its parameter type names and its
return type name as long as nothing is done to that name, whatever else happens. Missing for the code as it is: histories
that are not safe, after which the command may not be found. -/
theorem C48_metadata_partial (hex : ∀ b, 0 < b → exceeds 1 b = false)
    (h : Reached P fixed charSigned exceeds catching acts s) {h1 h2 : List (RegEvent C D)} {fs : List (Inst C D)}
    (hh : s.history = h1 ++ .added name fs :: h2) (hn : ∀ ev ∈ h2, ¬ Touches name ev)
    (hok : fixed = true ∨ SafeHistory s.history) :
    ∃ cmd, bindingsGet (mapOps fixed charSigned exceeds) s name = .ok (some cmd) ∧ cmd.name = name ∧
      cmd.functors.map (arity P) = fs.map (fun f => (P f.code).params.length) ∧
      cmd.functors.map (parameterTypes P) = fs.map (fun f => (P f.code).params.map (fun p => p.conv.name)) ∧
      cmd.functors.map (returnType P) = fs.map (fun f => (P f.code).retName) :=
  ⟨_, (C32_lookup_partial hex h hok).1 _ _ ⟨h1, h2, hh, hn⟩, rfl, rfl, rfl, rfl⟩

/-- **C48 (code as it is), always.** The command is still stored, unchanged, when it was just added and then nothing was done to its
name, also if the map got damaged. -/
theorem C48_still_stored {fs : List (C × D)}
    (ha : bindingsAdd (mapOps fixed charSigned exceeds) s name fs = .ok s1) {acts' : List (Action W C D)}
    (hr : actAll P (mapOps fixed charSigned exceeds) catching fuel s1 acts' = .ok s2) :
    ∃ h2, s2.history = s1.history ++ h2 ∧ ((∀ ev ∈ h2, ¬ Touches name ev) →
      ∃ cmd, (name, cmd) ∈ s2.reg.entries ∧ cmd.name = name ∧
        cmd.functors.map (fun f => (f.code, f.data)) = fs) := by
  have laws := mapLaws (C := C) (D := D) fixed charSigned exceeds
  have hk : Kept UMap.entries s1.history name ⟨name, allocate s.next fs⟩ s1 := by
    refine ⟨[], by simp, fun _ => ?_⟩
    simp only [bindingsAdd, Res.bind_eq_ok, Res.ok.injEq] at ha
    obtain ⟨old, h1, reg, h2, rfl⟩ := ha
    cases old with
    | none => rw [laws.put_new h1 h2]; simp
    | some c0 =>
      obtain ⟨l1, l2, _, e2⟩ := laws.put_old h1 h2
      rw [e2]
      simp
  obtain ⟨h2, e, k⟩ := (kept_preserved laws s1.history name _).actAll (fun _ _ o => o) hr hk
  exact ⟨h2, e, fun hn => ⟨_, k hn, rfl, allocate_defs _ _⟩⟩

/-! ## C40 -/

/-- **C40.** Two programs that agree in the registry, the lexer, the program state and the next address give the same
outcome for every request and agree afterwards, whatever calls, results and registry changes came before. This holds for the code as it is,
in every reachable state, and includes undefined behaviour and endless recursion. -/
theorem C40_isolated {acts1 acts2 : List (Action W C D)}
    (h1 : Reached P fixed charSigned exceeds catching acts1 s1)
    (h2 : Reached P fixed charSigned exceeds catching acts2 s2)
    (hreg : s1.reg = s2.reg) (hlex : s1.lexer = s2.lexer) (huser : s1.user = s2.user) (hnext : s1.next = s2.next)
    (req : Request) :
    (execute P (mapOps fixed charSigned exceeds) catching fuel s1 req).map
        (fun x => (x.2, x.1.reg, x.1.lexer, x.1.user, x.1.next)) =
      (execute P (mapOps fixed charSigned exceeds) catching fuel s2 req).map
        (fun x => (x.2, x.1.reg, x.1.lexer, x.1.user, x.1.next)) := by
  have laws := mapLaws (C := C) (D := D) fixed charSigned exceeds
  have hid : ∀ {s : Sys (UMap Bytes (Command C D)) W C D}, Owned UMap.entries s →
      Hidden UMap.entries s (present s) := fun o => ⟨o.live, o.past⟩
  have e1 := exec_graft (P := P) (catching := catching) laws s1 fuel 0 (present s1) req (hid h1.owned)
  have e2 := exec_graft (P := P) (catching := catching) laws s2 fuel 0 (present s2) req (hid h2.owned)
  rw [graft_present] at e1 e2
  have ep : present s1 = present s2 := by
    cases s1; cases s2
    simp only at hreg hlex huser hnext
    subst hreg; subst hlex; subst huser; subst hnext
    rfl
  unfold execute
  rw [e1, e2, ep]
  cases (nested P (mapOps fixed charSigned exceeds) catching fuel 0).exec (present s2) req <;> rfl

/-! ## C42 -/

/-- **C42.** In every state that can be reached, the function objects of a command that is found are alive. -/
theorem C42_found_is_alive (h : Reached P fixed charSigned exceeds catching acts s) {cmd : Command C D}
    (hf : bindingsGet (mapOps fixed charSigned exceeds) s name = .ok (some cmd)) :
    ∀ f ∈ cmd.functors, f.id ∉ s.freed := (C32_found_was_added h hf).2.2

/-- **C42.** While a command is running, its function object stays alive, whatever commands the function registers, removes or
executes, as long as nothing was done to its own name: at every moment of the run (`StepsTo`) it has not been destroyed. Holds for the code
as it is, also when the map gets damaged. -/
theorem C42_running_alive (h : Reached P fixed charSigned exceeds catching acts s) {cmd : Command C D} {f : Inst C D}
    (hf : bindingsGet (mapOps fixed charSigned exceeds) s name = .ok (some cmd)) (hm : f ∈ cmd.functors)
    {l : List Named} {past : List CtxEvent} {xs : Args (P f.code).params} {p : Prog W C D (P f.code).R}
    {x : List (Nat × Nat)}
    (hs : StepsTo (mapOps fixed charSigned exceeds) (nested P (mapOps fixed charSigned exceeds) catching fuel depth) f l
      [] ((P f.code).body xs) { s with calls := x } past p s') :
    ∃ h2, s'.history = s.history ++ h2 ∧ ((∀ ev ∈ h2, ¬ Touches name ev) → f.id ∉ s'.freed) := by
  have laws := mapLaws (C := C) (D := D) fixed charSigned exceeds
  have hk : Kept UMap.entries s.history name cmd { s with calls := x } :=
    ⟨[], by simp, fun _ => laws.find hf⟩
  have hk' := (kept_preserved laws s.history name cmd).steps
    ((kept_preserved laws s.history name cmd).exec (P := P) (catching := catching) fuel depth) hs hk
  have ho := (owned_preserved laws).steps
    ((owned_preserved (W := W) laws).exec (P := P) (catching := catching) fuel depth) hs
    ((owned_preserved laws).calls _ x h.owned)
  obtain ⟨h2, e, k⟩ := hk'
  exact ⟨h2, e, fun hn => ho.live _ (mem_entIds.2 ⟨name, cmd, k hn, List.mem_map_of_mem hm⟩)⟩

end

/-- **C42 is false for a command that removes itself**: its function object is destroyed while it runs, and the rest of the
function that uses its captured data is undefined. -/
theorem C42_self_removal_false :
    (Demo.thenExec [.add (lit "gone") [(7, 42)]] "gone").map (fun _ => ()) =
      .ub .useAfterFree := by decide +kernel

/-- Removing and adding other commands is fine. -/
example : (Demo.thenExec [.add (lit "add") [(0, 0)], .add (lit "safe") [(8, 42)]] "safe").map (fun x => (x.1.user, x.1.freed)) =
    .ok (42, [0]) := by decide +kernel

/-! ## Examples for C32, C48, C40 -/

/-- The example history: `two` has its last functions, `new` was added by a command, `add` was removed by it. -/
example : Demo.stands false Demo.acts "two" = .ok (some (lit "two", [(2, 2)])) ∧
    Demo.stands false Demo.acts "new" = .ok (some (lit "new", [(0, 0)])) ∧
    Demo.stands false Demo.acts "safe" = .ok (some (lit "safe", [(8, 42)])) ∧
    Demo.stands false Demo.acts "add" = .ok none := by
  refine ⟨?_, ?_, ?_, ?_⟩ <;> decide +kernel

/-- Its history. -/
example : (Demo.after false Demo.acts).map (fun s => s.history) = .ok
    [.added (lit "add") [⟨0, 0, 0⟩, ⟨1, 1, 0⟩], .added (lit "safe") [⟨2, 8, 42⟩], .added (lit "two") [⟨3, 1, 1⟩],
      .added (lit "new") [⟨4, 0, 0⟩], .removed (lit "add"), .added (lit "two") [⟨5, 2, 2⟩]] := by decide +kernel

/-- It is a spaced history. -/
example : SpacedHistory (C := Nat) (D := Nat)
    [.added (lit "add") [⟨0, 0, 0⟩, ⟨1, 1, 0⟩], .added (lit "safe") [⟨2, 8, 42⟩], .added (lit "two") [⟨3, 1, 1⟩],
      .added (lit "new") [⟨4, 0, 0⟩], .removed (lit "add"), .added (lit "two") [⟨5, 2, 2⟩]] := by
  refine ⟨by decide, trivial⟩

example : Registered (C := Nat) (D := Nat)
    [.added (lit "add") [⟨0, 0, 0⟩, ⟨1, 1, 0⟩], .added (lit "safe") [⟨2, 8, 42⟩], .added (lit "two") [⟨3, 1, 1⟩],
      .added (lit "new") [⟨4, 0, 0⟩], .removed (lit "add"), .added (lit "two") [⟨5, 2, 2⟩]] (lit "safe") [⟨2, 8, 42⟩] := by
  refine ⟨[_], [_, _, _, _], rfl, ?_⟩
  simp [Touches]
  decide

/-- **C32 is false of the code**: after these additions and removals `p` is not found although it was added last and
never removed (C24). -/
theorem C32_lookup_false :
    Demo.stands false [.add (lit "a") [(0, 1)], .add (lit "d") [(0, 2)], .add (lit "h") [(0, 3)], .add (lit "l") [(0, 4)],
      .remove (lit "d"), .remove (lit "a"), .add (lit "p") [(0, 5)], .add (lit "a") [(0, 6)], .remove (lit "l")] "p" =
      .ok none ∧
    LastAdded (W := Int) (C := Nat) (D := Nat) [.add (lit "a") [(0, 1)], .add (lit "d") [(0, 2)], .add (lit "h") [(0, 3)],
      .add (lit "l") [(0, 4)], .remove (lit "d"), .remove (lit "a"), .add (lit "p") [(0, 5)], .add (lit "a") [(0, 6)],
      .remove (lit "l")] (lit "p") [(0, 5)] := by
  refine ⟨by decide +kernel, [_, _, _, _, _, _], [_, _], rfl, ?_⟩
  simp [Action.Touches]
  decide

/-- The repaired registry finds it. -/
example : Demo.stands true [.add (lit "a") [(0, 1)], .add (lit "d") [(0, 2)], .add (lit "h") [(0, 3)], .add (lit "l") [(0, 4)],
      .remove (lit "d"), .remove (lit "a"), .add (lit "p") [(0, 5)], .add (lit "a") [(0, 6)], .remove (lit "l")] "p" =
      .ok (some (lit "p", [(0, 5)])) := by decide +kernel

/-- Two different pasts with the same registry: the same result. -/
example : (Demo.thenExec [.add (lit "add") [(0, 0), (1, 0)], .setUser 5, .exec (.line (lit "nonsense"))] "add 3").map
      (fun x => x.2) =
    (Demo.thenExec [.add (lit "add") [(0, 0), (1, 0)], .exec (.line (lit "add 9")), .setUser 5] "add 3").map
      (fun x => x.2) := by decide +kernel

/-! ## C47 -/

section

variable {W C D : Type} {P : C → FunctorDef W C D} {fixed charSigned : Bool} {exceeds : Nat → Nat → Bool}
  {catching : Bool} {fuel depth : Nat}

/-- A program with the given `Bindings` object. -/
def BindingsObj.inProgram (b : BindingsObj C D) (s : Sys (UMap Bytes (Command C D)) W C D) :
    Sys (UMap Bytes (Command C D)) W C D := { s with reg := b.reg, lexer := b.lexer }

/-- **C47 is false of the code** for every registry: after move construction, looking up, adding, removing or
executing any (non-empty) name in the moved-from object divides by zero, and executing any line dereferences a null
pointer. -/
theorem C47_moved_from_false (b : BindingsObj C D) (s : Sys (UMap Bytes (Command C D)) W C D) (name : Bytes) :
    bindingsGet (mapOps fixed charSigned exceeds) (b.moveConstruct.2.inProgram s) name = .ub .divByZero ∧
    (∀ fs, bindingsAdd (mapOps fixed charSigned exceeds) (b.moveConstruct.2.inProgram s) name fs = .ub .divByZero) ∧
    bindingsRemove (mapOps fixed charSigned exceeds) (b.moveConstruct.2.inProgram s) name = .ub .divByZero ∧
    (∀ args nameds, name ≠ [] → execute P (mapOps fixed charSigned exceeds) catching (fuel + 1)
      (b.moveConstruct.2.inProgram s) (.input ⟨name, args, nameds⟩) = .ub .divByZero) ∧
    (∀ t, execute P (mapOps fixed charSigned exceeds) catching (fuel + 1) (b.moveConstruct.2.inProgram s) (.line t) =
      .ub .nullDeref) := by
  have hf : (mapOps (C := C) (D := D) fixed charSigned exceeds).find (b.moveConstruct.2.inProgram s).reg name =
      .ub .divByZero := rfl
  refine ⟨rfl, fun fs => ?_, ?_, fun args nameds hn => ?_, fun t => rfl⟩
  · simp only [bindingsAdd, hf, Res.bind_ub]
  · simp only [bindingsRemove, hf, Res.bind_ub]
  · simp only [execute, Nested.exec, nested, executeInput, executeCtx, if_neg hn, hf, Res.bind_ub]

/-- **C47**, what does hold: the object moved into has everything the source had, and after move assignment (a swap) the source has what the
target had, so that it is as usable as the target was. -/
theorem C47_moves_partial (b c : BindingsObj C D) :
    b.moveConstruct.1 = b ∧ (b.moveAssign c).1 = c ∧ (b.moveAssign c).2 = b := ⟨rfl, rfl, rfl⟩

/-- **C47**, what does hold: clearing a moved-from registry is defined, and assigning a new registry to it makes it
usable again. -/
theorem C47_recover_partial (hex : ∀ b, 0 < b → exceeds 1 b = false) (b : BindingsObj C D) (lexer : Option Lexer) :
    ∃ m : UMap Bytes (Command C D), UMap.create (djb2 charSigned) 1 = .ok m ∧
      ((b.moveConstruct.2).moveAssign ⟨lexer, m⟩).1 = ⟨lexer, m⟩ ∧
      ∀ name, (mapOps (C := C) (D := D) fixed charSigned exceeds).find
        ((b.moveConstruct.2).moveAssign ⟨lexer, m⟩).1.reg name = .ok none := by
  obtain ⟨m, h1, _, h2, _⟩ := mapAfter_spec (V := Command C D) hex (buckets := 1) (by omega) (hash := djb2 charSigned)
    (fixed := true) [] (.inl rfl)
  obtain ⟨m', g1, g2⟩ := Res.bind_eq_ok.1 h1
  cases g2
  exact ⟨m, g1, rfl, h2.1⟩

end

end Coil
