import Verif.Spec.Views

/-! # Views and texts: the simulation -/

namespace Coil
namespace Vw
open Spec

variable {S W W' C D : Type} {I : Mem → W → W' → Prop}

/-! ## Memory -/

theorem Spec.Keeps.refl (m : Mem) : Keeps m m := fun _ _ h => h

theorem Spec.Keeps.trans {a b c : Mem} (h : Keeps a b) (h' : Keeps b c) : Keeps a c := fun x t hx => h' x t (h x t hx)

theorem read_keeps {m m' : Mem} (h : Keeps m m') {r : Ref} {t : Bytes} (hr : m.read r = .ok t) : m'.read r = .ok t := by
  unfold Mem.read at hr ⊢
  split
  · rename_i h0; rw [if_pos h0] at hr; exact hr
  · rename_i h0
    rw [if_neg h0] at hr
    cases hm : m[r.buf]? with
    | none => rw [hm] at hr; cases hr
    | some x =>
      cases x with
      | none => rw [hm] at hr; cases hr
      | some t' =>
        have := h r.buf t' hm
        unfold Holds at this
        rw [this]
        rw [hm] at hr
        exact hr

theorem readList_keeps {m m' : Mem} (h : Keeps m m') {rs : List Ref} {ts : List Bytes} (hr : m.readList rs = .ok ts) :
    m'.readList rs = .ok ts := by
  induction rs generalizing ts with
  | nil => exact hr
  | cons r rs ih =>
    simp only [Mem.readList, Res.bind_eq_ok] at hr ⊢
    obtain ⟨t, h1, ts', h2, h3⟩ := hr
    exact ⟨t, read_keeps h h1, ts', ih h2, h3⟩

theorem readValue_keeps {m m' : Mem} (h : Keeps m m') {v : GValue Ref} {x : Value} (hr : m.readValue v = .ok x) :
    m'.readValue v = .ok x := by
  simp only [Mem.readValue, Res.bind_eq_ok] at hr ⊢
  obtain ⟨ts, h1, h2⟩ := hr
  exact ⟨ts, readList_keeps h h1, h2⟩

theorem readValues_keeps {m m' : Mem} (h : Keeps m m') {vs : List (GValue Ref)} {xs : List Value} (hr : m.readValues vs = .ok xs) :
    m'.readValues vs = .ok xs := by
  induction vs generalizing xs with
  | nil => exact hr
  | cons v vs ih =>
    simp only [Mem.readValues, Res.bind_eq_ok] at hr ⊢
    obtain ⟨t, h1, ts', h2, h3⟩ := hr
    exact ⟨t, readValue_keeps h h1, ts', ih h2, h3⟩

theorem readOne_keeps {m m' : Mem} (h : Keeps m m') {v : GNamed Ref} {x : Named} (hr : m.readOne v = .ok x) :
    m'.readOne v = .ok x := by
  simp only [Mem.readOne, Res.bind_eq_ok] at hr ⊢
  obtain ⟨k, h1, ts, h2, h3⟩ := hr
  exact ⟨k, read_keeps h h1, ts, readValue_keeps h h2, h3⟩

theorem readNamed_keeps {m m' : Mem} (h : Keeps m m') {vs : List (GNamed Ref)} {xs : List Named} (hr : m.readNamed vs = .ok xs) :
    m'.readNamed vs = .ok xs := by
  induction vs generalizing xs with
  | nil => exact hr
  | cons v vs ih =>
    simp only [Mem.readNamed, Res.bind_eq_ok] at hr ⊢
    obtain ⟨t, h1, ts', h2, h3⟩ := hr
    exact ⟨t, readOne_keeps h h1, ts', ih h2, h3⟩

theorem readInput_keeps {m m' : Mem} (h : Keeps m m') {v : GInput Ref} {x : Input} (hr : m.readInput v = .ok x) :
    m'.readInput v = .ok x := by
  simp only [Mem.readInput, Res.bind_eq_ok] at hr ⊢
  obtain ⟨n, h1, a, h2, na, h3, h4⟩ := hr
  exact ⟨n, read_keeps h h1, a, readValues_keeps h h2, na, readNamed_keeps h h3, h4⟩

theorem keeps_make {base m : Mem} (h : Keeps base m) (t : Bytes) : Keeps base (m.make t) := by
  intro b t' hb
  have := h b t' hb
  unfold Holds Mem.make at *
  rw [List.getElem?_append_left (by
    rcases Nat.lt_or_ge b m.length with hl | hl
    · exact hl
    · rw [List.getElem?_eq_none hl] at this; cases this)]
  exact this

theorem keeps_write {base m m' : Mem} (h : Keeps base m) {b : Nat} {t : Bytes} (hn : ∀ t', ¬ Holds base b t') (hw : m.write b t = .ok m') :
    Keeps base m' := by
  intro b' t' hb
  have h1 := h b' t' hb
  unfold Mem.write at hw
  split at hw
  · cases hw
    unfold Holds at *
    rw [List.getElem?_set_ne (fun e => hn t' (by rw [e]; exact hb))]
    exact h1
  · cases hw
  · cases hw

theorem keeps_free {base m m' : Mem} (h : Keeps base m) {b : Nat} (hn : ∀ t', ¬ Holds base b t') (hw : m.free b = .ok m') :
    Keeps base m' := by
  intro b' t' hb
  have h1 := h b' t' hb
  unfold Mem.free at hw
  split at hw
  · cases hw
    unfold Holds at *
    rw [List.getElem?_set_ne (fun e => hn t' (by rw [e]; exact hb))]
    exact h1
  · cases hw

/-! ## Following -/

/-- `x` does what `y` does, where `y` is defined. -/
def Follows {α β : Type} (R : α → β → Prop) (x : Res α) : Res β → Prop
  | .ok b => ∃ a, x = .ok a ∧ R a b
  | .ub _ => True
  | .diverge => x = .diverge

theorem Follows.ok {α β : Type} {R : α → β → Prop} {a : α} {b : β} (h : R a b) : Follows R (.ok a) (.ok b) := ⟨a, rfl, h⟩

theorem Follows.bind {α β α' β' : Type} {R : α → β → Prop} {R' : α' → β' → Prop} {x : Res α} {y : Res β} {f : α → Res α'} {g : β → Res β'}
    (h : Follows R x y) (hf : ∀ a b, R a b → Follows R' (f a) (g b)) : Follows R' (x >>= f) (y >>= g) := by
  cases y with
  | ok b =>
    obtain ⟨a, rfl, h1⟩ := h
    exact hf a b h1
  | ub u => trivial
  | diverge => rw [show x = .diverge from h]; rfl

/-- The same library function on both sides. -/
theorem Follows.same {α : Type} {Q : α → Prop} {x : Res α} (h : ∀ a, x = .ok a → Q a) : Follows (fun a b => a = b ∧ Q b) x x := by
  cases x with
  | ok a => exact ⟨a, rfl, rfl, h a rfl⟩
  | ub u => trivial
  | diverge => rfl

/-- A call context on views is one on texts. -/
structure CtxIs (m : Mem) (c : VCtx) (c' : CallCtx) : Prop where
  input : m.readInput c.input = .ok c'.input
  errors : c.result.errors = c'.result.errors
  value : c.result.returnValue = c'.result.returnValue
  output : c.result.output = c'.result.output

theorem CtxIs.keeps {m m' : Mem} {c : VCtx} {c' : CallCtx} (h : CtxIs m c c') (hk : Keeps m m') : CtxIs m' c c' :=
  ⟨readInput_keeps hk h.input, h.errors, h.value, h.output⟩

theorem CtxIs.reportError {m : Mem} {c : VCtx} {c' : CallCtx} (h : CtxIs m c c') (e : Bytes) : CtxIs m (c.reportError e) (c'.reportError e) :=
  ⟨h.input, by simp [VCtx.reportError, CallCtx.reportError, h.errors], h.value, h.output⟩

theorem CtxIs.log {m : Mem} {c : VCtx} {c' : CallCtx} (h : CtxIs m c c') (e : Bytes) : CtxIs m (c.log e) (c'.log e) :=
  ⟨h.input, h.errors, h.value, by simp [VCtx.log, CallCtx.log, h.output]⟩

theorem CtxIs.logline {m : Mem} {c : VCtx} {c' : CallCtx} (h : CtxIs m c c') (e : Bytes) : CtxIs m (c.logline e) (c'.logline e) :=
  ⟨h.input, h.errors, h.value, by simp [VCtx.logline, CallCtx.logline, h.output]⟩

theorem CtxIs.hasErrors {m : Mem} {c : VCtx} {c' : CallCtx} (h : CtxIs m c c') : c.hasErrors = c'.hasErrors := by
  simp [VCtx.hasErrors, CallCtx.hasErrors, h.errors]

theorem readInput_parts {m : Mem} {i : GInput Ref} {x : Input} (h : m.readInput i = .ok x) :
    m.read i.name = .ok x.name ∧ m.readValues i.arguments = .ok x.arguments ∧ m.readNamed i.namedArguments = .ok x.namedArguments := by
  simp only [Mem.readInput, Res.bind_eq_ok] at h
  obtain ⟨n, h1, a, h2, na, h3, h4⟩ := h
  cases h4
  exact ⟨h1, h2, h3⟩

theorem readInput_of_parts {m : Mem} {i : GInput Ref} {x : Input} (h1 : m.read i.name = .ok x.name) (h2 : m.readValues i.arguments = .ok x.arguments)
    (h3 : m.readNamed i.namedArguments = .ok x.namedArguments) : m.readInput i = .ok x := by
  simp only [Mem.readInput, h1, h2, h3, Res.bind_ok]

theorem readNamed_length {m : Mem} {l : List (GNamed Ref)} {l' : List Named} (h : m.readNamed l = .ok l') : l.length = l'.length := by
  induction l generalizing l' with
  | nil => cases h; rfl
  | cons v l ih =>
    simp only [Mem.readNamed, Res.bind_eq_ok] at h
    obtain ⟨x, _, xs, h2, h3⟩ := h
    cases h3
    simp [ih h2]

theorem readValues_length {m : Mem} {l : List (GValue Ref)} {l' : List Value} (h : m.readValues l = .ok l') : l.length = l'.length := by
  induction l generalizing l' with
  | nil => cases h; rfl
  | cons v l ih =>
    simp only [Mem.readValues, Res.bind_eq_ok] at h
    obtain ⟨x, _, xs, h2, h3⟩ := h
    cases h3
    simp [ih h2]

theorem readNamed_set {m : Mem} {l : List (GNamed Ref)} {l' : List Named} (h : m.readNamed l = .ok l') {v : GNamed Ref} {v' : Named}
    (hv : m.readOne v = .ok v') (i : Nat) : m.readNamed (l.set i v) = .ok (l'.set i v') := by
  induction l generalizing l' i with
  | nil => cases h; exact rfl
  | cons w l ih =>
    simp only [Mem.readNamed, Res.bind_eq_ok] at h
    obtain ⟨x, h1, xs, h2, h3⟩ := h
    cases h3
    cases i with
    | zero => simp [Mem.readNamed, hv, h2]
    | succ i => simp [Mem.readNamed, h1, ih h2 i]

theorem CtxIs.setNamed {m : Mem} {c : VCtx} {c' : CallCtx} (h : CtxIs m c c') {v : GNamed Ref} {v' : Named} (hv : m.readOne v = .ok v') (i : Nat) :
    Follows (CtxIs m) (c.setNamed i v) (c'.setNamed i v') := by
  obtain ⟨h1, h2, h3⟩ := readInput_parts h.input
  unfold VCtx.setNamed CallCtx.setNamed writeAt
  rw [readNamed_length h3]
  split
  · exact .ok ⟨readInput_of_parts h1 h2 (readNamed_set h3 hv i), h.errors, h.value, h.output⟩
  · trivial

/-- The ends of a function. -/
inductive EndIs {R R' : Type} (ret : Mem → R → R' → Prop) (m : Mem) : End R → End R' → Prop
  | ret {r r'} : ret m r r' → EndIs ret m (.ret r) (.ret r')
  | exn (e) : EndIs ret m (.exn e) (.exn e)

theorem _root_.Coil.Vw.Spec.SysIs.keeps (hI : Lasting I) {m m' : Mem} {s : Sys S W C D} {s' : Sys S W' C D} (h : SysIs I m s s') (hk : Keeps m m') :
    SysIs I m' s s' := ⟨hI _ _ _ _ hk h.user, h.reg, h.lexer, h.freed, h.next, h.calls, h.history⟩

theorem _root_.Coil.Vw.Spec.SysIs.set {m : Mem} {s : Sys S W C D} {s' : Sys S W' C D} (h : SysIs I m s s') {w : W} {w' : W'} (hw : I m w w') :
    SysIs I m { s with user := w } { s' with user := w' } := ⟨hw, h.reg, h.lexer, h.freed, h.next, h.calls, h.history⟩

theorem _root_.Coil.Vw.Spec.SysIs.call {m : Mem} {s : Sys S W C D} {s' : Sys S W' C D} (h : SysIs I m s s') (x : Nat × Nat) :
    SysIs I m { s with calls := s.calls ++ [x] } { s' with calls := s'.calls ++ [x] } :=
  ⟨h.user, h.reg, h.lexer, h.freed, h.next, by rw [h.calls], h.history⟩

theorem sameState_lasting : Lasting (SameState (W := W)) := fun _ _ _ _ _ h => h

theorem _root_.Coil.Vw.Spec.SysIs.refl (m : Mem) (s : Sys S W C D) : SysIs SameState m s s := ⟨rfl, rfl, rfl, rfl, rfl, rfl, rfl⟩

theorem _root_.Coil.Vw.Spec.SysIs.eq {m : Mem} {s s' : Sys S W C D} (h : SysIs SameState m s s') : s = s' := by
  obtain ⟨a, b, c, d, e, f, g⟩ := s
  obtain ⟨a', b', c', d', e', f', g'⟩ := s'
  obtain ⟨h1, h2, h3, h4, h5, h6, h7⟩ := h
  dsimp only at h1 h2 h3 h4 h5 h6 h7
  have h1 : c = c' := h1
  subst h1 h2 h3 h4 h5 h6 h7
  rfl

/-- What a nested `execute` does. -/
def OutcomeIs (I : Mem → W → W' → Prop) (l : Option Lexer) (m : Mem) (a : VSys S W C D × VOut) (b : Sys S W' C D × ExecOut) : Prop :=
  SysIs I a.1.mem a.1.sys b.1 ∧ b.1.lexer = l ∧ Keeps m a.1.mem ∧ OutIs a.1.mem a.2 b.2

/-- The `execute` functions on views do what those on texts do. -/
def NestIs (I : Mem → W → W' → Prop) (l : Option Lexer) (ne : VNested S W C D) (ne' : Nested S W' C D) : Prop :=
  (∀ m s s' r t, SysIs I m s s' → s'.lexer = l → m.read r = .ok t → Follows (OutcomeIs I l m) (ne.line ⟨m, s⟩ r) (ne'.line s' t)) ∧
  (∀ m s s' i i', SysIs I m s s' → s'.lexer = l → m.readInput i = .ok i' →
    Follows (OutcomeIs I l m) (ne.input ⟨m, s⟩ i) (ne'.input s' i'))

/-- What running a body does. -/
def RunIs (I : Mem → W → W' → Prop) {R R' : Type} (l : Option Lexer) (ret : Mem → R → R' → Prop) (base : Mem) (a : VSys S W C D × VCtx × End R)
    (b : Sys S W' C D × CallCtx × End R') : Prop :=
  SysIs I a.1.mem a.1.sys b.1 ∧ b.1.lexer = l ∧ Keeps base a.1.mem ∧ CtxIs a.1.mem a.2.1 b.2.1 ∧ EndIs ret a.1.mem a.2.2 b.2.2

theorem RunIs.mono {R R' : Type} {l : Option Lexer} {ret : Mem → R → R' → Prop} {base base' : Mem} (h : Keeps base base')
    {a : VSys S W C D × VCtx × End R} {b : Sys S W' C D × CallCtx × End R'} (hr : RunIs I l ret base' a b) : RunIs I l ret base a b :=
  ⟨hr.1, hr.2.1, h.trans hr.2.2.1, hr.2.2.2⟩

theorem Follows.mono {α β : Type} {R R' : α → β → Prop} {x : Res α} {y : Res β} (h : Follows R x y) (hm : ∀ a b, R a b → R' a b) :
    Follows R' x y := by
  cases y with
  | ok b =>
    obtain ⟨a, h1, h2⟩ := h
    exact ⟨a, h1, hm _ _ h2⟩
  | ub u => trivial
  | diverge => exact h

theorem add_lexer {ops : RegOps S C D} {s s' : Sys S W C D} {n : Bytes} {fs : List (C × D)} (h : bindingsAdd ops s n fs = .ok s') :
    s'.lexer = s.lexer := by
  simp only [bindingsAdd, Res.bind_eq_ok] at h
  obtain ⟨_, _, _, _, h3⟩ := h
  cases h3
  rfl

theorem remove_lexer {ops : RegOps S C D} {s s' : Sys S W C D} {n : Bytes} (h : bindingsRemove ops s n = .ok s') : s'.lexer = s.lexer := by
  simp only [bindingsRemove, Res.bind_eq_ok] at h
  obtain ⟨_, _, _, _, h3⟩ := h
  cases h3
  rfl

theorem add_sim {ops : RegOps S C D} {l : Option Lexer} {m : Mem} {s : Sys S W C D} {s' : Sys S W' C D} (h : SysIs I m s s') (hl : s'.lexer = l)
    (n : Bytes) (fs : List (C × D)) :
    Follows (fun a b => SysIs I m a b ∧ b.lexer = l) (bindingsAdd ops s n fs) (bindingsAdd ops s' n fs) := by
  unfold bindingsAdd
  rw [h.reg, h.next]
  refine .bind (.same (Q := fun _ => True) fun _ _ => trivial) ?_
  rintro a b ⟨rfl, -⟩
  refine .bind (.same (Q := fun _ => True) fun _ _ => trivial) ?_
  rintro c d ⟨rfl, -⟩
  exact .ok ⟨⟨h.user, rfl, h.lexer, by rw [h.freed], rfl, h.calls, by rw [h.history]⟩, hl⟩

theorem remove_sim {ops : RegOps S C D} {l : Option Lexer} {m : Mem} {s : Sys S W C D} {s' : Sys S W' C D} (h : SysIs I m s s') (hl : s'.lexer = l)
    (n : Bytes) : Follows (fun a b => SysIs I m a b ∧ b.lexer = l) (bindingsRemove ops s n) (bindingsRemove ops s' n) := by
  unfold bindingsRemove
  rw [h.reg]
  refine .bind (.same (Q := fun _ => True) fun _ _ => trivial) ?_
  rintro a b ⟨rfl, -⟩
  refine .bind (.same (Q := fun _ => True) fun _ _ => trivial) ?_
  rintro c d ⟨rfl, -⟩
  exact .ok ⟨⟨h.user, rfl, h.lexer, by rw [h.freed], h.next, h.calls, by rw [h.history]⟩, hl⟩

theorem clear_sim {ops : RegOps S C D} {m : Mem} {s : Sys S W C D} {s' : Sys S W' C D} (h : SysIs I m s s') :
    SysIs I m (bindingsClear ops s) (bindingsClear ops s') :=
  ⟨h.user, by simp only [bindingsClear, h.reg], h.lexer, by simp only [bindingsClear, h.reg, h.freed], h.next, h.calls,
    by simp only [bindingsClear, h.history]⟩

theorem run_sim (hI : Lasting I) {R R' : Type} {ret : Mem → R → R' → Prop} {ops : RegOps S C D} {l : Option Lexer} {ne : VNested S W C D}
    {ne' : Nested S W' C D} (hn : NestIs I l ne ne') (self : Inst C D) {base m : Mem} {v : VProg W C D R} {p : Prog W' C D R'}
    (h : Sim I ret base m v p) :
    ∀ (s : Sys S W C D) (s' : Sys S W' C D) (c : VCtx) (c' : CallCtx), SysIs I m s s' → s'.lexer = l → Keeps base m → CtxIs base c c' →
      Follows (RunIs I l ret base) (v.run ops ne self ⟨m, s⟩ c) (p.run ops ne' self s' c') := by
  induction h with
  | ret hr => exact fun s s' c c' hs hl hk hc => .ok ⟨hs, hl, hk, hc.keeps hk, .ret hr⟩
  | throw e => exact fun s s' c c' hs hl hk hc => .ok ⟨hs, hl, hk, hc.keeps hk, .exn e⟩
  | ub w => exact fun s s' c c' hs hl hk hc => trivial
  | diverge => exact fun s s' c c' hs hl hk hc => rfl
  | log t _ ih => exact fun s s' c c' hs hl hk hc => ih s s' _ _ hs hl hk (hc.log t)
  | logline t _ ih => exact fun s s' c c' hs hl hk hc => ih s s' _ _ hs hl hk (hc.logline t)
  | reportError t _ ih => exact fun s s' c c' hs hl hk hc => ih s s' _ _ hs hl hk (hc.reportError t)
  | hasErrors _ ih =>
    intro s s' c c' hs hl hk hc
    simp only [VProg.run, Prog.run, hc.hasErrors]
    exact ih _ s s' _ _ hs hl hk hc
  | named _ ih => exact fun s s' c c' hs hl hk hc => ih _ _ (readInput_parts hc.input).2.2 s s' _ _ hs hl hk hc
  | setNamed i h1 h2 h3 _ ih =>
    intro s s' c c' hs hl hk hc
    simp only [VProg.run, Prog.run]
    refine .bind ((hc.keeps h1).setNamed h3 i) fun a b hab => ?_
    exact (ih s s' _ _ hs hl h2 hab).mono fun _ _ => .mono h1
  | get _ ih => exact fun s s' c c' hs hl hk hc => ih _ _ hs.user s s' _ _ hs hl hk hc
  | set hw _ ih => exact fun s s' c c' hs hl hk hc => ih { s with user := _ } { s' with user := _ } _ _ (hs.set hw) hl hk hc
  | captured _ ih =>
    intro s s' c c' hs hl hk hc
    simp only [VProg.run, Prog.run, hs.freed]
    split
    · trivial
    · exact ih _ s s' _ _ hs hl hk hc
  | add n fs _ ih =>
    intro s s' c c' hs hl hk hc
    simp only [VProg.run, Prog.run]
    refine .bind (add_sim hs hl n fs) ?_
    rintro a b ⟨hab, hb⟩
    exact ih _ _ _ _ hab hb hk hc
  | remove n _ ih =>
    intro s s' c c' hs hl hk hc
    simp only [VProg.run, Prog.run]
    refine .bind (remove_sim hs hl n) ?_
    rintro a b ⟨hab, hb⟩
    exact ih _ _ _ _ hab hb hk hc
  | clear _ ih => exact fun s s' c c' hs hl hk hc => ih (bindingsClear ops s) (bindingsClear ops s') _ _ (clear_sim hs) hl hk hc
  | execLine hr _ ih =>
    intro s s' c c' hs hl hk hc
    simp only [VProg.run, Prog.run]
    refine .bind (hn.1 _ s s' _ _ hs hl hr) ?_
    rintro ⟨⟨m', s1⟩, o⟩ ⟨s2, o'⟩ ⟨h1, h2, h3, h4⟩
    exact ih _ _ _ h3 h4 _ _ _ _ h1 h2 (hk.trans h3) hc
  | execInput hr _ ih =>
    intro s s' c c' hs hl hk hc
    simp only [VProg.run, Prog.run]
    refine .bind (hn.2 _ s s' _ _ hs hl hr) ?_
    rintro ⟨⟨m', s1⟩, o⟩ ⟨s2, o'⟩ ⟨h1, h2, h3, h4⟩
    exact ih _ _ _ h3 h4 _ _ _ _ h1 h2 (hk.trans h3) hc
  | make t _ ih => exact fun s s' c c' hs hl hk hc => ih s s' _ _ (hs.keeps hI (keeps_make (.refl _) t)) hl (keeps_make hk t) hc
  | write b t h1 h2 h3 _ ih =>
    intro s s' c c' hs hl hk hc
    simp only [VProg.run, h2, Res.bind_ok]
    exact ih s s' _ _ ⟨h3 _ _ hs.user, hs.reg, hs.lexer, hs.freed, hs.next, hs.calls, hs.history⟩ hl (keeps_write hk h1 h2) hc
  | free b h1 h2 h3 _ ih =>
    intro s s' c c' hs hl hk hc
    simp only [VProg.run, h2, Res.bind_ok]
    exact ih s s' _ _ ⟨h3 _ _ hs.user, hs.reg, hs.lexer, hs.freed, hs.next, hs.calls, hs.history⟩ hl (keeps_free hk h1 h2) hc
  | read hr _ ih =>
    intro s s' c c' hs hl hk hc
    simp only [VProg.run, hr, Res.bind_ok]
    exact ih s s' _ _ hs hl hk hc

/-! ## Calling -/

/-- The results of the conversions. -/
def ExpectedsAre (m : Mem) : {vs : List VParam} → {ps : List Param} → {sames : Mem → VArgs vs → Args ps → Prop} → ParamsAre vs ps sames →
    VExpecteds vs → Expecteds ps → Prop := fun {vs ps sames} _ e e' =>
  vmissing vs e = anyMissing ps e' ∧
  (∀ c c', CtxIs m c c' → CtxIs m (vreport vs e c) (reportAll ps e' c')) ∧
  Follows (sames m) (vtake vs e) (takeValues ps e')

theorem readValues_get {m : Mem} {l : List (GValue Ref)} {l' : List Value} (h : m.readValues l = .ok l') (i : Nat) :
    Follows (fun a b => m.readValue a = .ok b) (readAt l i) (readAt l' i) := by
  induction l generalizing l' i with
  | nil => cases h; exact trivial
  | cons v l ih =>
    simp only [Mem.readValues, Res.bind_eq_ok] at h
    obtain ⟨x, h1, xs, h2, h3⟩ := h
    cases h3
    cases i with
    | zero => exact .ok h1
    | succ i =>
      have := ih h2 i
      unfold readAt at this ⊢
      simpa using this

theorem convert_sim {m : Mem} {args : List (GValue Ref)} {args' : List Value} (ha : m.readValues args = .ok args') {vs : List VParam}
    {ps : List Param} {sames : Mem → VArgs vs → Args ps → Prop} (h : ParamsAre vs ps sames) :
    ∀ i, Follows (ExpectedsAre m h) (vconvert m args vs i) (convertArgs args' ps i) := by
  induction h with
  | nil => exact fun i => .ok ⟨rfl, fun c c' hc => hc, .ok trivial⟩
  | @cons v p same vs ps sames hp hps ih =>
    intro i
    unfold vconvert convertArgs
    refine .bind (readValues_get ha i) fun a b hab => ?_
    refine .bind (R := fun e e' => match e, e' with
      | .error x, .error x' => x = x'
      | .ok x, .ok x' => same m x x'
      | _, _ => False) ?_ fun e e' he => ?_
    · obtain ⟨h1, h2, h3⟩ := hp m a b hab
      cases hf : p.conv.fromString b with
      | ok e' =>
        cases e' with
        | error x => exact ⟨_, h2 x hf, rfl⟩
        | ok x' =>
          obtain ⟨x, hx, hs⟩ := h3 x' hf
          exact ⟨_, hx, hs⟩
      | ub u => trivial
      | diverge => exact h1 hf
    · refine .bind (ih (i + 1)) fun es es' hes => ?_
      refine .ok ?_
      obtain ⟨h1, h2, h3⟩ := hes
      cases e with
      | error x =>
        cases e' with
        | error x' =>
          cases he
          refine ⟨by simp [vmissing, anyMissing], fun c c' hc => ?_, trivial⟩
          exact h2 _ _ (hc.reportError x)
        | ok x' => exact he.elim
      | ok x =>
        cases e' with
        | error x' => exact he.elim
        | ok x' =>
          refine ⟨by simp [vmissing, anyMissing, h1], fun c c' hc => h2 _ _ hc, ?_⟩
          show Follows _ (vtake vs es >>= fun xs => .ok (x, xs)) (takeValues ps es' >>= fun xs => .ok (x', xs))
          exact .bind h3 fun xs xs' hx => .ok ⟨he, hx⟩

theorem ParamsAre_length {vs : List VParam} {ps : List Param} {sames : Mem → VArgs vs → Args ps → Prop} (h : ParamsAre vs ps sames) :
    vs.length = ps.length := by
  induction h with
  | nil => rfl
  | cons _ _ ih => simp [ih]

variable {V : C → VDef W C D} {P : C → FunctorDef W' C D} {ops : RegOps S C D} {l : Option Lexer} {ne : VNested S W C D} {ne' : Nested S W' C D}
  {catching : Bool} {lex : VLexer}

/-- What calling a function object does. -/
def CallIs (I : Mem → W → W' → Prop) (l : Option Lexer) (m : Mem) (a : VSys S W C D × VCtx × Option Exn)
    (b : Sys S W' C D × CallCtx × Option Exn) : Prop :=
  SysIs I a.1.mem a.1.sys b.1 ∧ b.1.lexer = l ∧ Keeps m a.1.mem ∧ CtxIs a.1.mem a.2.1 b.2.1 ∧ a.2.2 = b.2.2

theorem store_sim {v : VDef W C D} {p : FunctorDef W' C D} {m : Mem} {c : VCtx} {c' : CallCtx} (hc : CtxIs m c c') {e : End v.R} {e' : End p.R}
    (he : EndIs (PrintsAs v p) m e e') : ∃ x, vstore v m c e = .ok x ∧ CtxIs m x.1 (storeReturn p c' e').1 ∧ x.2 = (storeReturn p c' e').2 := by
  cases he with
  | exn e => exact ⟨_, rfl, hc, rfl⟩
  | @ret r r' hr =>
    unfold PrintsAs at hr
    simp only [vstore, storeReturn, hr, Res.bind_ok, hc.hasErrors]
    split
    · exact ⟨_, rfl, ⟨hc.input, hc.errors, rfl, hc.output⟩, rfl⟩
    · exact ⟨_, rfl, hc, rfl⟩

theorem invoke_sim (hI : Lasting I) (hP : ∀ c, DefUnder I (V c) (P c)) (hn : NestIs I l ne ne') (depth : Nat) (f : Inst C D) {m : Mem} {s : Sys S W C D} {s' : Sys S W' C D} {c : VCtx}
    {c' : CallCtx} (hs : SysIs I m s s') (hl : s'.lexer = l) (hc : CtxIs m c c') :
    Follows (CallIs I l m) (vinvoke V ops ne depth f ⟨m, s⟩ c) (invokeFunctor P ops ne' depth f s' c') := by
  unfold vinvoke invokeFunctor
  by_cases hf : f.id ∈ s'.freed
  · rw [if_pos (c := f.id ∈ s'.freed) hf]
    trivial
  · rw [if_neg (c := f.id ∈ s'.freed) hf, if_neg (by rw [hs.freed]; exact hf)]
    obtain ⟨sames, h1, h2⟩ := hP f.code
    refine .bind (convert_sim (readInput_parts hc.input).2.1 h1 0) fun es es' hes => ?_
    obtain ⟨g1, g2, g3⟩ := hes
    rw [g1]
    split
    · exact .ok ⟨hs, hl, .refl _, g2 _ _ hc, rfl⟩
    · refine .bind g3 fun a b hab => ?_
      refine .bind (run_sim hI hn f (h2 m a b hab) { s with calls := s.calls ++ [(depth, f.id)] } { s' with calls := s'.calls ++ [(depth, f.id)] } c c' (hs.call _) hl (.refl _) hc) ?_
      rintro ⟨⟨m', s1⟩, c1, e⟩ ⟨s2, c2, e'⟩ ⟨k1, k2, k3, k4, k5⟩
      dsimp only at k1 k2 k3 k4 k5 ⊢
      obtain ⟨x, hx, x1, x2⟩ := store_sim k4 k5
      simp only [hx, Res.bind_ok]
      exact .ok ⟨k1, k2, k3, x1, x2⟩

theorem arity_sim (hP : ∀ c, DefUnder I (V c) (P c)) (f : Inst C D) : varity V f = arity P f := by
  obtain ⟨_, h, _⟩ := hP f.code
  exact ParamsAre_length h

theorem select_sim (hP : ∀ c, DefUnder I (V c) (P c)) (n : Nat) (fs : List (Inst C D)) : vselect V n fs = selectLoop P n fs := by
  induction fs with
  | nil => rfl
  | cons f fs ih => simp only [vselect, selectLoop, arity_sim hP, ih]

theorem countError_sim (hP : ∀ c, DefUnder I (V c) (P c)) (n : Bytes) (fs : List (Inst C D)) (k : Nat) :
    vcountError V n fs k = countError P n fs k := by
  have : varity V = arity P := funext (arity_sim hP)
  simp only [vcountError, countError, this]

theorem handle_sim {m : Mem} {c : VCtx} {c' : CallCtx} (hc : CtxIs m c c') (e : Option Exn) :
    CtxIs m (vhandle catching c e).1 (handle catching c' e).1 ∧ (vhandle catching c e).2 = (handle catching c' e).2 := by
  match e with
  | none => exact ⟨hc, rfl⟩
  | some (.std w) =>
    cases catching
    · exact ⟨hc, rfl⟩
    · exact ⟨hc.reportError _, rfl⟩
  | some .other =>
    cases catching
    · exact ⟨hc, rfl⟩
    · exact ⟨hc.reportError _, rfl⟩

theorem read_empty {m : Mem} {r : Ref} {t : Bytes} (h : m.read r = .ok t) : r.len = 0 ↔ t = [] := by
  unfold Mem.read at h
  split at h
  · rename_i h0
    cases h
    exact ⟨fun _ => rfl, fun _ => h0⟩
  · rename_i h0
    split at h
    · split at h
      · rename_i t' _ hle
        cases h
        refine ⟨fun e => absurd e h0, fun e => ?_⟩
        have := congrArg List.length e
        simp only [List.length_take, List.length_drop, List.length_nil] at this
        omega
      · cases h
    · cases h
    · cases h

theorem executeCtx_sim (hI : Lasting I) (hP : ∀ c, DefUnder I (V c) (P c)) (hn : NestIs I l ne ne') (depth : Nat) {m : Mem} {s : Sys S W C D} {s' : Sys S W' C D} {c : VCtx}
    {c' : CallCtx} (hs : SysIs I m s s') (hl : s'.lexer = l) (hc : CtxIs m c c') :
    Follows (CallIs I l m) (vexecuteCtx V ops catching ne depth ⟨m, s⟩ c) (executeCtx P ops catching ne' depth s' c') := by
  have hi := readInput_parts hc.input
  unfold vexecuteCtx executeCtx
  simp only [read_empty hi.1, hs.reg]
  split
  · exact .ok ⟨hs, hl, .refl _, hc.reportError _, rfl⟩
  · simp only [hi.1, Res.bind_ok]
    refine .bind (.same (Q := fun _ => True) fun _ _ => trivial) ?_
    rintro a b ⟨rfl, -⟩
    cases a with
    | none => exact .ok ⟨hs, hl, .refl _, hc.reportError _, rfl⟩
    | some cmd =>
      simp only [select_sim hP, readValues_length hi.2.1, countError_sim hP]
      cases selectLoop P c'.input.arguments.length cmd.functors with
      | some f =>
        refine .bind (invoke_sim hI hP hn depth f hs hl hc) ?_
        rintro ⟨s1, c1, e⟩ ⟨s2, c2, e'⟩ ⟨k1, k2, k3, k4, k5⟩
        dsimp only at k1 k2 k3 k4 k5 ⊢
        subst k5
        exact .ok ⟨k1, k2, k3, (handle_sim k4 e).1, (handle_sim k4 e).2⟩
      | none => exact .ok ⟨hs, hl, .refl _, hc.reportError _, rfl⟩

theorem executeInput_sim (hI : Lasting I) (hP : ∀ c, DefUnder I (V c) (P c)) (hn : NestIs I l ne ne') (depth : Nat) {m : Mem} {s : Sys S W C D} {s' : Sys S W' C D} {i : GInput Ref}
    {i' : Input} (hs : SysIs I m s s') (hl : s'.lexer = l) (hi : m.readInput i = .ok i') :
    Follows (OutcomeIs I l m) (vexecuteInput V ops catching ne depth ⟨m, s⟩ i) (executeInput P ops catching ne' depth s' i') := by
  unfold vexecuteInput executeInput
  refine .bind (executeCtx_sim (catching := catching) hI hP hn depth hs hl (c := ⟨i, VResult.empty⟩) (c' := ⟨i', ExecResult.empty⟩)
    ⟨hi, rfl, rfl, rfl⟩) ?_
  rintro ⟨s1, c1, e⟩ ⟨s2, c2, e'⟩ ⟨k1, k2, k3, k4, k5⟩
  dsimp only at k1 k2 k3 k4 k5 ⊢
  subst k5
  cases e with
  | none => exact .ok ⟨k1, k2, k3, .ok ⟨k4.input, k4.errors, k4.value, k4.output⟩⟩
  | some e => exact .ok ⟨k1, k2, k3, .exn e⟩

/-! ## Views of views -/

theorem read_sub {m : Mem} {r : Ref} {t : Bytes} (hr : m.read r = .ok t) {v : View} {x : Bytes} (hv : v.read t = .ok x) :
    m.read (r.sub v) = .ok x := by
  unfold View.read at hv
  split at hv
  · rename_i hle
    cases hv
    unfold Mem.read
    split
    · rename_i h0
      simp only [Ref.sub] at h0
      simp [h0]
    · rename_i h0
      simp only [Ref.sub] at h0
      unfold Mem.read at hr
      split at hr
      · cases hr
        simp only [List.length_nil] at hle
        omega
      · split at hr
        · rename_i h1 t' hm
          split at hr
          · rename_i h2
            cases hr
            simp only [List.length_take, List.length_drop] at hle
            have e : m[(r.sub v).buf]? = some (some t') := hm
            rw [e]
            dsimp only
            rw [if_pos (show (r.sub v).off + (r.sub v).len ≤ t'.length from by simp only [Ref.sub]; omega)]
            simp only [Ref.sub, List.drop_take, List.take_take, List.drop_drop]
            rw [Nat.min_eq_left (by omega)]
          · cases hr
        · cases hr
        · cases hr
  · cases hv

theorem readList_sub {m : Mem} {r : Ref} {t : Bytes} (hr : m.read r = .ok t) {vs : List View} {xs : List Bytes} (hv : readViews t vs = .ok xs) :
    m.readList (vs.map r.sub) = .ok xs := by
  induction vs generalizing xs with
  | nil => exact hv
  | cons v vs ih =>
    simp only [readViews, Res.bind_eq_ok] at hv
    obtain ⟨b, h1, bs, h2, h3⟩ := hv
    cases h3
    simp [Mem.readList, read_sub hr h1, ih h2]

theorem readValue_sub {m : Mem} {r : Ref} {t : Bytes} (hr : m.read r = .ok t) {v : GValue View} {x : Value} (hv : v.read t = .ok x) :
    m.readValue (r.value v) = .ok x := by
  simp only [GValue.read, Res.bind_eq_ok] at hv
  obtain ⟨ts, h1, h2⟩ := hv
  cases h2
  simp [Mem.readValue, Ref.value, readList_sub hr h1]

theorem readValues_sub {m : Mem} {r : Ref} {t : Bytes} (hr : m.read r = .ok t) {vs : List (GValue View)} {xs : List Value}
    (hv : readArgs t vs = .ok xs) : m.readValues (vs.map r.value) = .ok xs := by
  induction vs generalizing xs with
  | nil => exact hv
  | cons v vs ih =>
    simp only [readArgs, Res.bind_eq_ok] at hv
    obtain ⟨b, h1, bs, h2, h3⟩ := hv
    cases h3
    simp [Mem.readValues, readValue_sub hr h1, ih h2]

theorem readNamed_sub {m : Mem} {r : Ref} {t : Bytes} (hr : m.read r = .ok t) {vs : List (GNamed View)} {xs : List Named}
    (hv : Coil.readNamed t vs = .ok xs) : m.readNamed (vs.map r.named) = .ok xs := by
  induction vs generalizing xs with
  | nil => exact hv
  | cons v vs ih =>
    simp only [Coil.readNamed, Res.bind_eq_ok] at hv
    obtain ⟨k, h1, b, h2, bs, h3, h4⟩ := hv
    cases h4
    simp [Mem.readNamed, Mem.readOne, Ref.named, read_sub hr h1, readValue_sub hr h2, ih h3]

theorem readInput_sub {m : Mem} {r : Ref} {t : Bytes} (hr : m.read r = .ok t) {i : GInput View} {x : Input} (hv : i.read t = .ok x) :
    m.readInput (r.input i) = .ok x := by
  simp only [GInput.read, Res.bind_eq_ok] at hv
  obtain ⟨n, h1, a, h2, na, h3, h4⟩ := hv
  cases h4
  simp [Mem.readInput, Ref.input, read_sub hr h1, readValues_sub hr h2, readNamed_sub hr h3]

theorem Res.halts_bind {α β : Type} {x : Res α} {f : α → Res β} (h : x ≠ .diverge) (hf : ∀ a, f a ≠ .diverge) : (x >>= f) ≠ .diverge := by
  cases x with
  | ok a => exact hf a
  | ub u => intro h; cases h
  | diverge => exact absurd rfl h

theorem view_halts (t : Bytes) (v : View) : v.read t ≠ .diverge := by
  unfold View.read
  split <;> intro h <;> cases h

theorem views_halts (t : Bytes) (vs : List View) : readViews t vs ≠ .diverge := by
  induction vs with
  | nil => intro h; cases h
  | cons v vs ih => exact Res.halts_bind (view_halts t v) fun _ => Res.halts_bind ih fun _ h => by cases h

theorem value_halts (t : Bytes) (v : GValue View) : v.read t ≠ .diverge := Res.halts_bind (views_halts t _) fun _ h => by cases h

theorem input_halts (t : Bytes) (i : GInput View) : i.read t ≠ .diverge := by
  refine Res.halts_bind (view_halts t _) fun _ => Res.halts_bind ?_ fun _ => Res.halts_bind ?_ fun _ h => by cases h
  · induction i.arguments with
    | nil => intro h; cases h
    | cons v vs ih => exact Res.halts_bind (value_halts t v) fun _ => Res.halts_bind ih fun _ h => by cases h
  · induction i.namedArguments with
    | nil => intro h; cases h
    | cons v vs ih =>
      exact Res.halts_bind (view_halts t _) fun _ => Res.halts_bind (value_halts t _) fun _ => Res.halts_bind ih fun _ h => by cases h

theorem executeLine_sim (hI : Lasting I) (hP : ∀ c, DefUnder I (V c) (P c)) (hn : NestIs I (some (textLexer lex)) ne ne') (depth : Nat) {m : Mem} {s : Sys S W C D} {s' : Sys S W' C D}
    {r : Ref} {t : Bytes} (hs : SysIs I m s s') (hl : s'.lexer = some (textLexer lex)) (hr : m.read r = .ok t) :
    Follows (OutcomeIs I (some (textLexer lex)) m) (vexecuteLine lex V ops catching ne depth ⟨m, s⟩ r) (executeLine P ops catching ne' depth s' t) := by
  unfold vexecuteLine executeLine
  simp only [hl, hr, Res.bind_ok, textLexer]
  cases hx : lex t with
  | ub u => trivial
  | diverge => rfl
  | ok o =>
    cases o with
    | error e => exact .ok ⟨hs, hl, .refl _, .ok ⟨by simp [VResult.empty, ExecResult.empty, Mem.readInput, Mem.read, Mem.readValues, Mem.readNamed, Input.empty], rfl, rfl, rfl⟩⟩
    | ok i =>
      cases hi : i.read t with
      | ub u => simp only [Res.bind_ok, hi, Res.bind_ub]; trivial
      | diverge => exact absurd hi (input_halts t i)
      | ok x =>
        simp only [Res.bind_ok, hi]
        exact executeInput_sim hI hP hn depth hs hl (readInput_sub hr hi)

theorem nested_sim (hI : Lasting I) (hP : ∀ c, DefUnder I (V c) (P c)) (fuel depth : Nat) :
    NestIs (S := S) I (some (textLexer lex)) (vnested lex V ops catching fuel depth) (nested P ops catching fuel depth) := by
  induction fuel generalizing depth with
  | zero => exact ⟨fun _ _ _ _ _ _ _ _ => rfl, fun _ _ _ _ _ _ _ _ => rfl⟩
  | succ fuel ih =>
    exact ⟨fun m s s' r t hs hl hr => executeLine_sim hI hP (ih _) depth hs hl hr, fun m s s' i i' hs hl hi => executeInput_sim hI hP (ih _) depth hs hl hi⟩

end Vw
end Coil
