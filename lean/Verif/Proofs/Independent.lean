import Verif.Spec.Book
import Verif.Proofs.Registry

/-! # Programs on two containers -/

namespace Coil
open Spec

section
variable {S S1 S2 W C D R β γ : Type}

/-- What the names stand for after a history. -/
abbrev standing (h : List (RegEvent C D)) : Bytes → Option (Command C D) := dictAfter (h.map asDictOp)

/-- The container behaves like a dictionary along the histories in `Safe`; `I h m`: `m` is the container after the history `h`. -/
structure Implements (Safe : List (RegEvent C D) → Prop) (ops : RegOps S C D) (I : List (RegEvent C D) → S → Prop) : Prop where
  find : ∀ {h m}, I h m → Safe h → ∀ k, ops.find m k = .ok (standing h k)
  put : ∀ {h m} n fs, I h m → Safe (h ++ [.added n fs]) → ∃ m', ops.put m n ⟨n, fs⟩ = .ok m' ∧ I (h ++ [.added n fs]) m'
  erase : ∀ {h m} n, I h m → Safe (h ++ [.removed n]) → ∃ m', ops.erase m n = .ok m' ∧ I (h ++ [.removed n]) m'
  clear : ∀ {h m}, I h m → Safe (h ++ [.cleared]) → I (h ++ [.cleared]) (ops.clear m)
  all : ∀ {h m}, I h m → Safe h → ∀ id, id ∈ (ops.all m).flatMap Command.ids ↔ ∃ k c, standing h k = some c ∧ id ∈ c.ids

variable {Safe : List (RegEvent C D) → Prop} {ops1 : RegOps S1 C D} {ops2 : RegOps S2 C D}
  {I1 : List (RegEvent C D) → S1 → Prop} {I2 : List (RegEvent C D) → S2 → Prop}

/-- Two programs that differ in the container only. -/
structure Alike (I1 : List (RegEvent C D) → S1 → Prop) (I2 : List (RegEvent C D) → S2 → Prop)
    (s1 : Sys S1 W C D) (s2 : Sys S2 W C D) : Prop where
  reg1 : I1 s2.history s1.reg
  reg2 : I2 s2.history s2.reg
  lexer : s1.lexer = s2.lexer
  user : s1.user = s2.user
  freed : ∀ id, id ∈ s1.freed ↔ id ∈ s2.freed
  next : s1.next = s2.next
  calls : s1.calls = s2.calls
  history : s1.history = s2.history

/-- The first computation ends as the second does; if not all histories are safe, only when the second ends properly with a safe history. -/
def Fol (Safe : List (RegEvent C D) → Prop) (I1 : List (RegEvent C D) → S1 → Prop) (I2 : List (RegEvent C D) → S2 → Prop)
    (r1 : Res (Sys S1 W C D × β)) : Res (Sys S2 W C D × β) → Prop
  | .ok x => Safe x.1.history → ∃ s1, r1 = .ok (s1, x.2) ∧ Alike I1 I2 s1 x.1
  | .ub w => (∀ h, Safe h) → r1 = .ub w
  | .diverge => (∀ h, Safe h) → r1 = .diverge

/-- The history only grows. -/
def GrowsFrom (h : List (RegEvent C D)) (r : Res (Sys S W C D × β)) : Prop := ∀ x, r = .ok x → h <+: x.1.history

theorem fol_unsafe (hpre : ∀ a b, Safe (a ++ b) → Safe a) {h : List (RegEvent C D)} (hu : ¬ Safe h)
    {r1 : Res (Sys S1 W C D × β)} {r2 : Res (Sys S2 W C D × β)} (hg : GrowsFrom h r2) : Fol Safe I1 I2 r1 r2 := by
  cases r2 with
  | ok x =>
    intro hs
    obtain ⟨t, ht⟩ := hg x rfl
    rw [← ht] at hs
    exact absurd (hpre _ _ hs) hu
  | ub w => exact fun ha => absurd (ha h) hu
  | diverge => exact fun ha => absurd (ha h) hu

theorem fol_bind (hpre : ∀ a b, Safe (a ++ b) → Safe a) {r1 : Res (Sys S1 W C D × β)} {r2 : Res (Sys S2 W C D × β)}
    (hr : Fol Safe I1 I2 r1 r2) {f1 : Sys S1 W C D × β → Res (Sys S1 W C D × γ)} {f2 : Sys S2 W C D × β → Res (Sys S2 W C D × γ)}
    (hg : ∀ x, GrowsFrom x.1.history (f2 x))
    (hf : ∀ s1 s2 b, Safe s2.history → Alike I1 I2 s1 s2 → Fol Safe I1 I2 (f1 (s1, b)) (f2 (s2, b))) :
    Fol Safe I1 I2 (r1 >>= f1) (r2 >>= f2) := by
  cases r2 with
  | ok x =>
    rw [Res.bind_ok]
    by_cases hs : Safe x.1.history
    · obtain ⟨s1, h1, h2⟩ := hr hs
      rw [h1, Res.bind_ok]
      exact hf s1 x.1 x.2 hs h2
    · exact fol_unsafe hpre hs (hg x)
  | ub w => intro ha; rw [hr ha]; rfl
  | diverge => intro ha; rw [hr ha]; rfl

theorem grows_ok (s : Sys S W C D) (b : β) : GrowsFrom s.history (.ok (s, b)) := by
  intro x hx; cases hx; exact List.prefix_rfl

theorem grows_bind {h : List (RegEvent C D)} {r : Res (Sys S W C D × β)} (hr : GrowsFrom h r)
    {f : Sys S W C D × β → Res (Sys S W C D × γ)} (hf : ∀ x, GrowsFrom x.1.history (f x)) : GrowsFrom h (r >>= f) := by
  intro y hy
  obtain ⟨x, h1, h2⟩ := Res.bind_eq_ok.1 hy
  exact (hr x h1).trans (hf x y h2)

/-- A change of the registry, as a computation with a result. -/
def paired (r : Res (Sys S W C D)) : Res (Sys S W C D × Unit) := do
  let s ← r
  .ok (s, ())

theorem paired_bind (r : Res (Sys S W C D)) (f : Sys S W C D → Res β) : (r >>= f) = (paired r >>= fun x => f x.1) := by
  cases r <;> rfl

theorem grows_add {ops : RegOps S C D} (s : Sys S W C D) (n : Bytes) (fs : List (C × D)) : GrowsFrom s.history (paired (bindingsAdd ops s n fs)) := by
  intro x hx
  simp only [paired, bindingsAdd, Res.bind_eq_ok, Res.ok.injEq] at hx
  obtain ⟨_, ⟨_, _, _, _, rfl⟩, rfl⟩ := hx
  exact ⟨_, rfl⟩

theorem grows_remove {ops : RegOps S C D} (s : Sys S W C D) (n : Bytes) : GrowsFrom s.history (paired (bindingsRemove ops s n)) := by
  intro x hx
  simp only [paired, bindingsRemove, Res.bind_eq_ok, Res.ok.injEq] at hx
  obtain ⟨_, ⟨_, _, _, _, rfl⟩, rfl⟩ := hx
  exact ⟨_, rfl⟩

theorem grows_clear {ops : RegOps S C D} (s : Sys S W C D) : s.history <+: (bindingsClear ops s).history := ⟨_, rfl⟩

/-- The nested `execute` functions only grow the history. -/
def NeGrows (ne : Nested S W C D) : Prop :=
  (∀ s t, GrowsFrom s.history (ne.line s t)) ∧ ∀ s i, GrowsFrom s.history (ne.input s i)

theorem grows_run {ops : RegOps S C D} {ne : Nested S W C D} (hne : NeGrows ne) {self : Inst C D} (p : Prog W C D R)
    (s : Sys S W C D) (c : CallCtx) : GrowsFrom s.history (p.run ops ne self s c) := by
  induction p generalizing s c with
  | ret r => exact grows_ok s _
  | throw e => exact grows_ok s _
  | ub w => intro x hx; cases hx
  | diverge => intro x hx; cases hx
  | log t k ih => exact ih s _
  | logline t k ih => exact ih s _
  | reportError t k ih => exact ih s _
  | hasErrors k ih => exact ih _ s _
  | named k ih => exact ih _ s _
  | setNamed i v k ih =>
    intro x hx
    simp only [Prog.run, Res.bind_eq_ok] at hx
    obtain ⟨c', _, h⟩ := hx
    exact ih s c' x h
  | get k ih => exact ih _ s _
  | set w k ih => exact ih { s with user := w } _
  | captured k ih =>
    intro x hx
    simp only [Prog.run] at hx
    split at hx
    · cases hx
    · exact ih _ s c x hx
  | add n fs k ih =>
    simp only [Prog.run, paired_bind (bindingsAdd ops s n fs)]
    exact grows_bind (grows_add s n fs) (fun x => ih x.1 c)
  | remove n k ih =>
    simp only [Prog.run, paired_bind (bindingsRemove ops s n)]
    exact grows_bind (grows_remove s n) (fun x => ih x.1 c)
  | clear k ih =>
    intro x hx
    exact (grows_clear s).trans (ih (bindingsClear ops s) c x hx)
  | execLine t k ih => exact grows_bind (hne.1 s t) (fun x => ih x.2 x.1 c)
  | execInput i k ih => exact grows_bind (hne.2 s i) (fun x => ih x.2 x.1 c)

variable (hpre : ∀ a b, Safe (a ++ b) → Safe a) (m1 : Implements Safe ops1 I1) (m2 : Implements Safe ops2 I2)
include hpre m1 m2

omit hpre in
theorem Alike.find {s1 : Sys S1 W C D} {s2 : Sys S2 W C D} (a : Alike I1 I2 s1 s2) (hs : Safe s2.history) (k : Bytes) :
    ops1.find s1.reg k = ops2.find s2.reg k := by rw [m1.find a.reg1 hs, m2.find a.reg2 hs]

theorem fol_add {s1 : Sys S1 W C D} {s2 : Sys S2 W C D} (a : Alike I1 I2 s1 s2) (hs : Safe s2.history) (n : Bytes) (fs : List (C × D)) :
    Fol Safe I1 I2 (paired (bindingsAdd ops1 s1 n fs)) (paired (bindingsAdd ops2 s2 n fs)) := by
  by_cases hn : Safe (s2.history ++ [.added n (allocate s2.next fs)])
  · obtain ⟨r1, e1, i1⟩ := m1.put n (allocate s2.next fs) a.reg1 hn
    obtain ⟨r2, e2, i2⟩ := m2.put n (allocate s2.next fs) a.reg2 hn
    simp only [paired, bindingsAdd, a.next, m1.find a.reg1 hs, m2.find a.reg2 hs, e1, e2, Res.bind_ok]
    intro _
    exact ⟨_, rfl, i1, i2, a.lexer, a.user, fun id => by simp [a.freed id], rfl, a.calls, by rw [a.history]⟩
  · refine fol_unsafe hpre hn ?_
    intro x hx
    simp only [paired, bindingsAdd, Res.bind_eq_ok, Res.ok.injEq] at hx
    obtain ⟨_, ⟨_, _, _, _, rfl⟩, rfl⟩ := hx
    exact List.prefix_rfl

theorem fol_remove {s1 : Sys S1 W C D} {s2 : Sys S2 W C D} (a : Alike I1 I2 s1 s2) (hs : Safe s2.history) (n : Bytes) :
    Fol Safe I1 I2 (paired (bindingsRemove ops1 s1 n)) (paired (bindingsRemove ops2 s2 n)) := by
  by_cases hn : Safe (s2.history ++ [.removed n])
  · obtain ⟨r1, e1, i1⟩ := m1.erase n a.reg1 hn
    obtain ⟨r2, e2, i2⟩ := m2.erase n a.reg2 hn
    simp only [paired, bindingsRemove, m1.find a.reg1 hs, m2.find a.reg2 hs, e1, e2, Res.bind_ok]
    intro _
    exact ⟨_, rfl, i1, i2, a.lexer, a.user, fun id => by simp [a.freed id], a.next, a.calls, by rw [a.history]⟩
  · refine fol_unsafe hpre hn ?_
    intro x hx
    simp only [paired, bindingsRemove, Res.bind_eq_ok, Res.ok.injEq] at hx
    obtain ⟨_, ⟨_, _, _, _, rfl⟩, rfl⟩ := hx
    exact List.prefix_rfl

omit hpre in
theorem Alike.clear {s1 : Sys S1 W C D} {s2 : Sys S2 W C D} (a : Alike I1 I2 s1 s2) (hs : Safe s2.history)
    (hn : Safe (s2.history ++ [.cleared])) : Alike I1 I2 (bindingsClear ops1 s1) (bindingsClear ops2 s2) := by
  refine ⟨m1.clear a.reg1 hn, m2.clear a.reg2 hn, a.lexer, a.user, fun id => ?_, a.next, a.calls, ?_⟩
  · simp only [bindingsClear, List.mem_append, a.freed id, m1.all a.reg1 hs id, m2.all a.reg2 hs id]
  · simp only [bindingsClear, a.history]

omit hpre m1 m2 in
theorem Alike.withUser {s1 : Sys S1 W C D} {s2 : Sys S2 W C D} (a : Alike I1 I2 s1 s2) (w : W) :
    Alike I1 I2 { s1 with user := w } { s2 with user := w } :=
  ⟨a.reg1, a.reg2, a.lexer, rfl, a.freed, a.next, a.calls, a.history⟩

/-- The nested `execute` functions follow each other. -/
def NeFol (Safe : List (RegEvent C D) → Prop) (I1 : List (RegEvent C D) → S1 → Prop) (I2 : List (RegEvent C D) → S2 → Prop)
    (ne1 : Nested S1 W C D) (ne2 : Nested S2 W C D) : Prop :=
  (∀ s1 s2 t, Alike I1 I2 s1 s2 → Safe s2.history → Fol Safe I1 I2 (ne1.line s1 t) (ne2.line s2 t)) ∧
  ∀ s1 s2 i, Alike I1 I2 s1 s2 → Safe s2.history → Fol Safe I1 I2 (ne1.input s1 i) (ne2.input s2 i)

theorem fol_run {ne1 : Nested S1 W C D} {ne2 : Nested S2 W C D} (hg : NeGrows ne2) (hne : NeFol Safe I1 I2 ne1 ne2)
    {self : Inst C D} (p : Prog W C D R) {s1 : Sys S1 W C D} {s2 : Sys S2 W C D} (c : CallCtx) (a : Alike I1 I2 s1 s2)
    (hs : Safe s2.history) : Fol Safe I1 I2 (p.run ops1 ne1 self s1 c) (p.run ops2 ne2 self s2 c) := by
  induction p generalizing s1 s2 c with
  | ret r => exact fun _ => ⟨s1, rfl, a⟩
  | throw e => exact fun _ => ⟨s1, rfl, a⟩
  | ub w => exact fun _ => rfl
  | diverge => exact fun _ => rfl
  | log t k ih => exact ih _ a hs
  | logline t k ih => exact ih _ a hs
  | reportError t k ih => exact ih _ a hs
  | hasErrors k ih => exact ih _ _ a hs
  | named k ih => exact ih _ _ a hs
  | setNamed i v k ih =>
    simp only [Prog.run]
    cases c.setNamed i v with
    | ok c' => exact ih c' a hs
    | ub w => exact fun _ => rfl
    | diverge => exact fun _ => rfl
  | get k ih =>
    simp only [Prog.run, a.user]
    exact ih _ _ a hs
  | set w k ih => exact ih _ (a.withUser w) hs
  | captured k ih =>
    simp only [Prog.run, a.freed]
    split
    · exact fun _ => rfl
    · exact ih _ _ a hs
  | add n fs k ih =>
    simp only [Prog.run, paired_bind (bindingsAdd ops1 s1 n fs), paired_bind (bindingsAdd ops2 s2 n fs)]
    exact fol_bind hpre (fol_add hpre m1 m2 a hs n fs) (fun x => grows_run hg k x.1 c) (fun t1 t2 _ ht al => ih c al ht)
  | remove n k ih =>
    simp only [Prog.run, paired_bind (bindingsRemove ops1 s1 n), paired_bind (bindingsRemove ops2 s2 n)]
    exact fol_bind hpre (fol_remove hpre m1 m2 a hs n) (fun x => grows_run hg k x.1 c) (fun t1 t2 _ ht al => ih c al ht)
  | clear k ih =>
    simp only [Prog.run]
    by_cases hn : Safe (s2.history ++ [.cleared])
    · exact ih c (a.clear m1 m2 hs hn) hn
    · exact fol_unsafe hpre hn (grows_run hg k (bindingsClear ops2 s2) c)
  | execLine t k ih =>
    exact fol_bind hpre (hne.1 s1 s2 t a hs) (fun x => grows_run hg (k x.2) x.1 c) (fun t1 t2 o ht al => ih o c al ht)
  | execInput i k ih =>
    exact fol_bind hpre (hne.2 s1 s2 i a hs) (fun x => grows_run hg (k x.2) x.1 c) (fun t1 t2 o ht al => ih o c al ht)

omit hpre m1 m2 in
theorem grows_invoke {P : C → FunctorDef W C D} {ne : Nested S W C D} {ops : RegOps S C D} (hg : NeGrows ne) (depth : Nat) (f : Inst C D)
    (s : Sys S W C D) (c : CallCtx) : GrowsFrom s.history (invokeFunctor P ops ne depth f s c) := by
  unfold invokeFunctor
  intro x hx
  split at hx
  · cases hx
  · obtain ⟨es, _, h⟩ := Res.bind_eq_ok.1 hx
    split at h
    · cases h; exact List.prefix_rfl
    · obtain ⟨args, _, h⟩ := Res.bind_eq_ok.1 h
      obtain ⟨y, h1, h2⟩ := Res.bind_eq_ok.1 h
      cases h2
      exact grows_run hg _ { s with calls := s.calls ++ [(depth, f.id)] } c y h1

theorem fol_invoke {P : C → FunctorDef W C D} {ne1 : Nested S1 W C D} {ne2 : Nested S2 W C D} (hg : NeGrows ne2)
    (hne : NeFol Safe I1 I2 ne1 ne2) (depth : Nat) (f : Inst C D) {s1 : Sys S1 W C D} {s2 : Sys S2 W C D} (c : CallCtx)
    (a : Alike I1 I2 s1 s2) (hs : Safe s2.history) :
    Fol Safe I1 I2 (invokeFunctor P ops1 ne1 depth f s1 c) (invokeFunctor P ops2 ne2 depth f s2 c) := by
  unfold invokeFunctor
  simp only [a.freed]
  split
  · exact fun _ => rfl
  · cases convertArgs c.input.arguments (P f.code).params 0 with
    | ub w => exact fun _ => rfl
    | diverge => exact fun _ => rfl
    | ok es =>
      simp only [Res.bind_ok]
      split
      · exact fun _ => ⟨s1, rfl, a⟩
      · cases takeValues (P f.code).params es with
        | ub w => exact fun _ => rfl
        | diverge => exact fun _ => rfl
        | ok args =>
          simp only [Res.bind_ok]
          refine fol_bind hpre (fol_run hpre m1 m2 hg hne _ c
            (s1 := { s1 with calls := s1.calls ++ [(depth, f.id)] }) (s2 := { s2 with calls := s2.calls ++ [(depth, f.id)] })
            ⟨a.reg1, a.reg2, a.lexer, a.user, a.freed, a.next, by simp only [a.calls], a.history⟩ hs) (fun x => grows_ok x.1 _) ?_
          intro t1 t2 b _ al _
          exact ⟨t1, rfl, al⟩

omit hpre m1 m2 in
theorem grows_ctx {P : C → FunctorDef W C D} {ne : Nested S W C D} {ops : RegOps S C D} (hg : NeGrows ne) (catching : Bool) (depth : Nat)
    (s : Sys S W C D) (c : CallCtx) : GrowsFrom s.history (executeCtx P ops catching ne depth s c) := by
  unfold executeCtx
  intro x hx
  split at hx
  · cases hx; exact List.prefix_rfl
  · obtain ⟨o, _, h⟩ := Res.bind_eq_ok.1 hx
    cases o with
    | none => cases h; exact List.prefix_rfl
    | some cmd =>
      dsimp only at h
      split at h
      · obtain ⟨y, h1, h2⟩ := Res.bind_eq_ok.1 h
        cases h2
        exact grows_invoke hg depth _ s c y h1
      · cases h; exact List.prefix_rfl

theorem fol_ctx {P : C → FunctorDef W C D} {ne1 : Nested S1 W C D} {ne2 : Nested S2 W C D} (hg : NeGrows ne2)
    (hne : NeFol Safe I1 I2 ne1 ne2) (catching : Bool) (depth : Nat) {s1 : Sys S1 W C D} {s2 : Sys S2 W C D} (c : CallCtx)
    (a : Alike I1 I2 s1 s2) (hs : Safe s2.history) :
    Fol Safe I1 I2 (executeCtx P ops1 catching ne1 depth s1 c) (executeCtx P ops2 catching ne2 depth s2 c) := by
  unfold executeCtx
  split
  · exact fun _ => ⟨s1, rfl, a⟩
  · simp only [m1.find a.reg1 hs, m2.find a.reg2 hs, Res.bind_ok]
    cases standing s2.history c.input.name with
    | none => exact fun _ => ⟨s1, rfl, a⟩
    | some cmd =>
      dsimp only
      split
      · refine fol_bind hpre (fol_invoke hpre m1 m2 hg hne depth _ c a hs) (fun x => grows_ok x.1 _) ?_
        intro t1 t2 b _ al _
        exact ⟨t1, rfl, al⟩
      · exact fun _ => ⟨s1, rfl, a⟩

omit hpre m1 m2 in
theorem grows_input {P : C → FunctorDef W C D} {ne : Nested S W C D} {ops : RegOps S C D} (hg : NeGrows ne) (catching : Bool) (depth : Nat)
    (s : Sys S W C D) (i : Input) : GrowsFrom s.history (executeInput P ops catching ne depth s i) := by
  unfold executeInput
  refine grows_bind (grows_ctx hg catching depth s _) ?_
  rintro ⟨s', c, e⟩
  cases e <;> exact grows_ok s' _

theorem fol_input {P : C → FunctorDef W C D} {ne1 : Nested S1 W C D} {ne2 : Nested S2 W C D} (hg : NeGrows ne2)
    (hne : NeFol Safe I1 I2 ne1 ne2) (catching : Bool) (depth : Nat) {s1 : Sys S1 W C D} {s2 : Sys S2 W C D} (i : Input)
    (a : Alike I1 I2 s1 s2) (hs : Safe s2.history) :
    Fol Safe I1 I2 (executeInput P ops1 catching ne1 depth s1 i) (executeInput P ops2 catching ne2 depth s2 i) := by
  unfold executeInput
  refine fol_bind hpre (fol_ctx hpre m1 m2 hg hne catching depth _ a hs) ?_ ?_
  · rintro ⟨s', c, e⟩
    cases e <;> exact grows_ok s' _
  · rintro t1 t2 ⟨c, e⟩ _ al
    cases e <;> exact fun _ => ⟨t1, rfl, al⟩

omit hpre m1 m2 in
theorem grows_line {P : C → FunctorDef W C D} {ne : Nested S W C D} {ops : RegOps S C D} (hg : NeGrows ne) (catching : Bool) (depth : Nat)
    (s : Sys S W C D) (t : Bytes) : GrowsFrom s.history (executeLine P ops catching ne depth s t) := by
  unfold executeLine
  split
  · intro x hx; cases hx
  · intro x hx
    obtain ⟨o, _, h⟩ := Res.bind_eq_ok.1 hx
    cases o with
    | error e => cases h; exact List.prefix_rfl
    | ok i => exact grows_input hg catching depth s i x h

theorem fol_line {P : C → FunctorDef W C D} {ne1 : Nested S1 W C D} {ne2 : Nested S2 W C D} (hg : NeGrows ne2)
    (hne : NeFol Safe I1 I2 ne1 ne2) (catching : Bool) (depth : Nat) {s1 : Sys S1 W C D} {s2 : Sys S2 W C D} (t : Bytes)
    (a : Alike I1 I2 s1 s2) (hs : Safe s2.history) :
    Fol Safe I1 I2 (executeLine P ops1 catching ne1 depth s1 t) (executeLine P ops2 catching ne2 depth s2 t) := by
  unfold executeLine
  rw [a.lexer]
  split
  · exact fun _ => rfl
  · rename_i l _
    cases l t with
    | ub w => exact fun _ => rfl
    | diverge => exact fun _ => rfl
    | ok o =>
      cases o with
      | error e => exact fun _ => ⟨s1, rfl, a⟩
      | ok i => exact fol_input hpre m1 m2 hg hne catching depth i a hs

omit hpre m1 m2 in
theorem grows_nested {P : C → FunctorDef W C D} {ops : RegOps S C D} (catching : Bool) (fuel depth : Nat) :
    NeGrows (nested P ops catching fuel depth) := by
  induction fuel generalizing depth with
  | zero =>
    refine ⟨?_, ?_⟩
    · intro s t x hx; cases hx
    · intro s t x hx; cases hx
  | succ fuel ih => exact ⟨grows_line (ih (depth + 1)) catching depth, grows_input (ih (depth + 1)) catching depth⟩

theorem fol_nested {P : C → FunctorDef W C D} (catching : Bool) (fuel depth : Nat) :
    NeFol Safe I1 I2 (nested P ops1 catching fuel depth) (nested P ops2 catching fuel depth) := by
  induction fuel generalizing depth with
  | zero => exact ⟨fun _ _ _ _ _ _ => rfl, fun _ _ _ _ _ _ => rfl⟩
  | succ fuel ih =>
    exact ⟨fun _ _ t a hs => fol_line hpre m1 m2 (grows_nested catching fuel (depth + 1)) (ih (depth + 1)) catching depth t a hs,
      fun _ _ i a hs => fol_input hpre m1 m2 (grows_nested catching fuel (depth + 1)) (ih (depth + 1)) catching depth i a hs⟩

omit hpre m1 m2 in
theorem grows_execute {P : C → FunctorDef W C D} {ops : RegOps S C D} (catching : Bool) (fuel : Nat) (s : Sys S W C D) (req : Request) :
    GrowsFrom s.history (execute P ops catching fuel s req) := by
  cases req with
  | line t => exact (grows_nested catching fuel 0).1 s t
  | input i => exact (grows_nested catching fuel 0).2 s i

theorem fol_execute {P : C → FunctorDef W C D} (catching : Bool) (fuel : Nat) {s1 : Sys S1 W C D} {s2 : Sys S2 W C D} (req : Request)
    (a : Alike I1 I2 s1 s2) (hs : Safe s2.history) :
    Fol Safe I1 I2 (execute P ops1 catching fuel s1 req) (execute P ops2 catching fuel s2 req) := by
  cases req with
  | line t => exact (fol_nested hpre m1 m2 catching fuel 0).1 s1 s2 t a hs
  | input i => exact (fol_nested hpre m1 m2 catching fuel 0).2 s1 s2 i a hs

omit hpre m1 m2 in
theorem grows_act {P : C → FunctorDef W C D} {ops : RegOps S C D} (catching : Bool) (fuel : Nat) (s : Sys S W C D) (a : Action W C D) :
    GrowsFrom s.history (actOut P ops catching fuel s a) := by
  cases a with
  | add n fs =>
    simp only [actOut, paired_bind (bindingsAdd ops s n fs)]
    exact grows_bind (grows_add s n fs) (fun x => grows_ok x.1 _)
  | remove n =>
    simp only [actOut, paired_bind (bindingsRemove ops s n)]
    exact grows_bind (grows_remove s n) (fun x => grows_ok x.1 _)
  | clear => intro x hx; cases hx; exact grows_clear s
  | setLexer l => intro x hx; cases hx; exact List.prefix_rfl
  | exec req => exact grows_bind (grows_execute catching fuel s req) (fun x => grows_ok x.1 _)
  | setUser w => intro x hx; cases hx; exact List.prefix_rfl

omit hpre m1 m2 in
theorem grows_acts {P : C → FunctorDef W C D} {ops : RegOps S C D} (catching : Bool) (fuel : Nat) (s : Sys S W C D) (acts : List (Action W C D)) :
    GrowsFrom s.history (actsOut P ops catching fuel s acts) := by
  induction acts generalizing s with
  | nil => exact grows_ok s _
  | cons a acts ih =>
    refine grows_bind (grows_act catching fuel s a) (fun x => ?_)
    exact grows_bind (ih x.1) (fun y => grows_ok y.1 _)

theorem fol_act {P : C → FunctorDef W C D} (catching : Bool) (fuel : Nat) {s1 : Sys S1 W C D} {s2 : Sys S2 W C D} (act : Action W C D)
    (a : Alike I1 I2 s1 s2) (hs : Safe s2.history) :
    Fol Safe I1 I2 (actOut P ops1 catching fuel s1 act) (actOut P ops2 catching fuel s2 act) := by
  have done : ∀ {β γ : Type} (g : β → γ) (t1 : Sys S1 W C D) (t2 : Sys S2 W C D) (b : β), Safe t2.history → Alike I1 I2 t1 t2 →
      Fol Safe I1 I2 (.ok (t1, g b)) (.ok (t2, g b)) := fun g t1 t2 b _ al _ => ⟨t1, rfl, al⟩
  cases act with
  | add n fs =>
    simp only [actOut, paired_bind (bindingsAdd ops1 s1 n fs), paired_bind (bindingsAdd ops2 s2 n fs)]
    exact fol_bind hpre (fol_add hpre m1 m2 a hs n fs) (fun x => grows_ok x.1 _) (done fun _ => [])
  | remove n =>
    simp only [actOut, paired_bind (bindingsRemove ops1 s1 n), paired_bind (bindingsRemove ops2 s2 n)]
    exact fol_bind hpre (fol_remove hpre m1 m2 a hs n) (fun x => grows_ok x.1 _) (done fun _ => [])
  | clear => exact fun hn => ⟨_, rfl, a.clear m1 m2 hs hn⟩
  | setLexer l => exact fun _ => ⟨_, rfl, a.reg1, a.reg2, rfl, a.user, a.freed, a.next, a.calls, a.history⟩
  | exec req => exact fol_bind hpre (fol_execute hpre m1 m2 catching fuel req a hs) (fun x => grows_ok x.1 _) (done fun o => [o])
  | setUser w => exact fun _ => ⟨_, rfl, a.withUser w⟩

theorem fol_acts {P : C → FunctorDef W C D} (catching : Bool) (fuel : Nat) {s1 : Sys S1 W C D} {s2 : Sys S2 W C D}
    (acts : List (Action W C D)) (a : Alike I1 I2 s1 s2) (hs : Safe s2.history) :
    Fol Safe I1 I2 (actsOut P ops1 catching fuel s1 acts) (actsOut P ops2 catching fuel s2 acts) := by
  induction acts generalizing s1 s2 with
  | nil => exact fun _ => ⟨s1, rfl, a⟩
  | cons x acts ih =>
    refine fol_bind hpre (fol_act hpre m1 m2 catching fuel x a hs) (fun y => grows_bind (grows_acts catching fuel y.1 acts) (fun z => grows_ok z.1 _)) ?_
    intro t1 t2 b ht al
    refine fol_bind hpre (ih al ht) (fun z => grows_ok z.1 _) ?_
    intro u1 u2 b' _ al' _
    exact ⟨u1, rfl, al'⟩

end
end Coil
