import Verif.Proofs.Registry

/-! # Executions do not depend on what happened before -/

namespace Coil
open Spec

variable {S W C D R : Type} {P : C → FunctorDef W C D} {ops : RegOps S C D} {catching : Bool} {fuel depth : Nat}
  {ents : S → List (Bytes × Command C D)} {a s : Sys S W C D}

/-- Put a past before a program: destroyed function objects, calls and registry changes. -/
def graft (a s : Sys S W C D) : Sys S W C D :=
  { s with freed := a.freed ++ s.freed, calls := a.calls ++ s.calls, history := a.history ++ s.history }

/-- The past destroyed no function object that is still stored, and none that will be allocated. -/
def Hidden (ents : S → List (Bytes × Command C D)) (a s : Sys S W C D) : Prop :=
  (∀ id ∈ entIds (ents s.reg), id ∉ a.freed) ∧ ∀ id ∈ a.freed, id < s.next

/-- Apply a function to a result. -/
def Res.map {α β : Type} (f : α → β) (x : Res α) : Res β := x >>= fun a => .ok (f a)

@[simp] theorem Res.map_ok {α β : Type} (f : α → β) (x : α) : (Res.ok x).map f = .ok (f x) := rfl
@[simp] theorem Res.map_ub {α β : Type} (f : α → β) (w : UB) : (Res.ub w).map f = .ub w := rfl
@[simp] theorem Res.map_diverge {α β : Type} (f : α → β) : (Res.diverge).map f = .diverge := rfl

theorem Res.map_bind {α β γ : Type} (f : β → γ) (x : Res α) (g : α → Res β) :
    (x >>= g).map f = x >>= fun a => (g a).map f := by
  cases x <;> rfl

theorem Res.bind_map {α β γ : Type} (f : α → β) (x : Res α) (g : β → Res γ) :
    x.map f >>= g = x >>= fun a => g (f a) := by
  cases x <;> rfl

theorem hidden_preserved (laws : RegLaws ops ents) : Preserved ops (Hidden ents a) where
  user _ _ h := h
  calls _ _ h := h
  add s n fs s' hk h := by
    simp only [bindingsAdd, Res.bind_eq_ok, Res.ok.injEq] at h
    obtain ⟨old, h1, reg, h2, rfl⟩ := h
    refine ⟨?_, fun id hid => Nat.lt_of_lt_of_le (hk.2 id hid) (Nat.le_add_right _ _)⟩
    have hmem : ∀ k c, (k, c) ∈ ents reg → (k, c) ∈ ents s.reg ∨ c = ⟨n, allocate s.next fs⟩ := by
      intro k c hk
      cases old with
      | none =>
        rw [laws.put_new h1 h2] at hk
        simp only [List.mem_append, List.mem_singleton, Prod.mk.injEq] at hk
        exact hk.imp id (·.2)
      | some c0 =>
        obtain ⟨l1, l2, e1, e2⟩ := laws.put_old h1 h2
        rw [e2] at hk
        rw [e1]
        simp only [List.mem_append, List.mem_cons, Prod.mk.injEq] at hk ⊢
        rcases hk with h | h | h
        · exact .inl (.inl h)
        · exact .inr h.2
        · exact .inl (.inr (.inr h))
    intro id hid
    obtain ⟨k, c, g1, g2⟩ := mem_entIds.1 hid
    rcases hmem k c g1 with g1 | rfl
    · exact hk.1 id (mem_entIds.2 ⟨k, c, g1, g2⟩)
    · intro hf
      have := hk.2 id hf
      rw [show (Command.ids ⟨n, allocate s.next fs⟩) = List.range' s.next fs.length from allocate_ids _ _,
        List.mem_range'_1] at g2
      omega
  remove s n s' hk h := by
    simp only [bindingsRemove, Res.bind_eq_ok, Res.ok.injEq] at h
    obtain ⟨old, h1, reg, h2, rfl⟩ := h
    refine ⟨?_, hk.2⟩
    cases old with
    | none => rw [laws.erase_missing h1 h2]; exact hk.1
    | some c0 =>
      intro id hid
      obtain ⟨k, c, g1, g2⟩ := mem_entIds.1 hid
      exact hk.1 id (mem_entIds.2 ⟨k, c, (laws.erase_found h1 h2).mem_iff.2 (List.mem_cons_of_mem _ g1), g2⟩)
  clear s hk := by
    refine ⟨?_, hk.2⟩
    rw [show ents (bindingsClear ops s).reg = [] from laws.clear _]
    simp [entIds]

theorem graft_add (n : Bytes) (fs : List (C × D)) :
    bindingsAdd ops (graft a s) n fs = (bindingsAdd ops s n fs).map (graft a) := by
  unfold bindingsAdd graft
  cases ops.find s.reg n with
  | ok old =>
    simp only [Res.bind_ok]
    cases ops.put s.reg n ⟨n, allocate s.next fs⟩ with
    | ok reg => simp
    | ub w => rfl
    | diverge => rfl
  | ub w => rfl
  | diverge => rfl

theorem graft_remove (n : Bytes) : bindingsRemove ops (graft a s) n = (bindingsRemove ops s n).map (graft a) := by
  unfold bindingsRemove graft
  cases ops.find s.reg n with
  | ok old =>
    simp only [Res.bind_ok]
    cases ops.erase s.reg n with
    | ok reg => simp
    | ub w => rfl
    | diverge => rfl
  | ub w => rfl
  | diverge => rfl

theorem graft_clear : bindingsClear ops (graft a s) = graft a (bindingsClear ops s) := by
  simp [bindingsClear, graft]

/-- The nested `execute` functions do not see the past. -/
def Blind (ents : S → List (Bytes × Command C D)) (a : Sys S W C D) (ne : Nested S W C D) : Prop :=
  ∀ s req, Hidden ents a s → ne.exec (graft a s) req = (ne.exec s req).map (fun x => (graft a x.1, x.2))

theorem run_graft (laws : RegLaws ops ents) {ne : Nested S W C D} (hb : Blind ents a ne)
    (hne : ∀ s req s' out, Hidden ents a s → ne.exec s req = .ok (s', out) → Hidden ents a s')
    {self : Inst C D} (hself : self.id ∉ a.freed) (p : Prog W C D R) (s : Sys S W C D) (c : CallCtx)
    (hs : Hidden ents a s) :
    p.run ops ne self (graft a s) c = (p.run ops ne self s c).map (fun x => (graft a x.1, x.2)) := by
  have hp := hidden_preserved (a := a) laws
  induction p generalizing s c with
  | ret r => rfl
  | throw e => rfl
  | ub w => rfl
  | diverge => rfl
  | log t k ih => exact ih s _ hs
  | logline t k ih => exact ih s _ hs
  | reportError t k ih => exact ih s _ hs
  | hasErrors k ih => exact ih _ s c hs
  | named k ih => exact ih _ s c hs
  | setNamed i v k ih =>
    simp only [Prog.run]
    cases c.setNamed i v with
    | ok c' => exact ih s c' hs
    | ub w => rfl
    | diverge => rfl
  | get k ih => exact ih _ s c hs
  | set w k ih => exact ih _ c (hp.user _ _ hs)
  | captured k ih =>
    have e : (self.id ∈ (graft a s).freed) ↔ self.id ∈ s.freed := by simp [graft, hself]
    simp only [Prog.run, e]
    split
    · rfl
    · exact ih _ s c hs
  | add n fs k ih =>
    simp only [Prog.run, graft_add, Res.bind_map]
    cases h : bindingsAdd ops s n fs with
    | ok s' => exact ih s' c (hp.add _ _ _ _ hs h)
    | ub w => rfl
    | diverge => rfl
  | remove n k ih =>
    simp only [Prog.run, graft_remove, Res.bind_map]
    cases h : bindingsRemove ops s n with
    | ok s' => exact ih s' c (hp.remove _ _ _ hs h)
    | ub w => rfl
    | diverge => rfl
  | clear k ih =>
    simp only [Prog.run, graft_clear]
    exact ih _ c (hp.clear _ hs)
  | execLine t k ih =>
    have h0 := hb s (.line t) hs
    simp only [Nested.exec] at h0
    simp only [Prog.run, h0, Res.bind_map]
    cases h : ne.line s t with
    | ok x => exact ih x.2 x.1 c (hne s (.line t) x.1 x.2 hs h)
    | ub w => rfl
    | diverge => rfl
  | execInput t k ih =>
    have h0 := hb s (.input t) hs
    simp only [Nested.exec] at h0
    simp only [Prog.run, h0, Res.bind_map]
    cases h : ne.input s t with
    | ok x => exact ih x.2 x.1 c (hne s (.input t) x.1 x.2 hs h)
    | ub w => rfl
    | diverge => rfl

theorem invoke_graft (laws : RegLaws ops ents) {ne : Nested S W C D} (hb : Blind ents a ne)
    (hne : ∀ s req s' out, Hidden ents a s → ne.exec s req = .ok (s', out) → Hidden ents a s')
    {f : Inst C D} (hf : f.id ∉ a.freed) (s : Sys S W C D) (c : CallCtx) (hs : Hidden ents a s) :
    invokeFunctor P ops ne depth f (graft a s) c =
      (invokeFunctor P ops ne depth f s c).map (fun x => (graft a x.1, x.2)) := by
  have e : (f.id ∈ (graft a s).freed) ↔ f.id ∈ s.freed := by simp [graft, hf]
  unfold invokeFunctor
  simp only [e]
  split
  · rfl
  · cases convertArgs c.input.arguments (P f.code).params 0 with
    | ub w => rfl
    | diverge => rfl
    | ok es =>
      simp only [Res.bind_ok]
      split
      · rfl
      · cases takeValues (P f.code).params es with
        | ub w => rfl
        | diverge => rfl
        | ok args =>
          simp only [Res.bind_ok]
          have hg : ({ graft a s with calls := (graft a s).calls ++ [(depth, f.id)] } : Sys S W C D) =
              graft a { s with calls := s.calls ++ [(depth, f.id)] } := by simp [graft]
          rw [hg, run_graft laws hb hne hf _ { s with calls := s.calls ++ [(depth, f.id)] } _ hs, Res.bind_map, Res.map_bind]
          cases ((P f.code).body args).run ops ne f { s with calls := s.calls ++ [(depth, f.id)] } c <;> rfl

theorem executeInput_graft (laws : RegLaws ops ents) {ne : Nested S W C D} (hb : Blind ents a ne)
    (hne : ∀ s req s' out, Hidden ents a s → ne.exec s req = .ok (s', out) → Hidden ents a s')
    (s : Sys S W C D) (i : Input) (hs : Hidden ents a s) :
    executeInput P ops catching ne depth (graft a s) i =
      (executeInput P ops catching ne depth s i).map (fun x => (graft a x.1, x.2)) := by
  unfold executeInput executeCtx
  have hreg : (graft a s).reg = s.reg := rfl
  simp only [hreg]
  by_cases hn : i.name = []
  · simp only [hn, if_true, Res.bind_ok]
    rfl
  simp only [if_neg hn]
  cases hfi : ops.find s.reg i.name with
  | ub w => rfl
  | diverge => rfl
  | ok o =>
    cases o with
    | none => rfl
    | some cmd =>
      simp only [Res.bind_ok]
      cases hsel : selectLoop P i.arguments.length cmd.functors with
      | none => rfl
      | some f =>
        have hf : f.id ∉ a.freed := by
          obtain ⟨pre, post, e, _⟩ := selectLoop_some.1 hsel
          refine hs.1 _ (mem_entIds.2 ⟨_, _, laws.find hfi, ?_⟩)
          simp [Command.ids, e]
        simp only [invoke_graft laws hb hne hf _ _ hs]
        cases invokeFunctor P ops ne depth f s ⟨i, ExecResult.empty⟩ with
        | ub w => rfl
        | diverge => rfl
        | ok x =>
          simp only [Res.map_ok, Res.bind_ok]
          cases (handle catching x.2.1 x.2.2).2 <;> rfl

/-- Executing does not depend on the past. -/
theorem exec_graft (laws : RegLaws ops ents) (a : Sys S W C D) (fuel : Nat) :
    ∀ depth, Blind ents a (nested P ops catching fuel depth) := by
  induction fuel with
  | zero =>
    intro depth s req _
    cases req <;> rfl
  | succ fuel ih =>
    intro depth s req hs
    have hne := (hidden_preserved (a := a) laws).exec (P := P) (catching := catching) fuel (depth + 1)
    cases req with
    | input i => exact executeInput_graft laws (ih (depth + 1)) hne s i hs
    | line t =>
      simp only [Nested.exec, nested, executeLine, show (graft a s).lexer = s.lexer from rfl]
      cases s.lexer with
      | none => rfl
      | some l =>
        simp only
        cases l t with
        | ub w => rfl
        | diverge => rfl
        | ok r =>
          cases r with
          | error m => rfl
          | ok i => exact executeInput_graft laws (ih (depth + 1)) hne s i hs

/-- The part of a program that executions can depend on. -/
def present (s : Sys S W C D) : Sys S W C D := { s with freed := [], calls := [], history := [] }

theorem graft_present (s : Sys S W C D) : graft s (present s) = s := by simp [graft, present]

end Coil
