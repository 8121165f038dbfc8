import Verif.Spec.ExecThrow
import Verif.Proofs.Semantics

/-! # Executing when memory runs out: from the model to the semantics -/

namespace Coil
namespace Oom
open Spec

variable {S W C D : Type} {P : C → TDef W C D} {T : TOps S C D} {catching : Bool}

/-- The container behaves like a dictionary along the histories in `Safe`, also when memory runs out. -/
structure ImplementsT (Safe : List (RegEvent C D) → Prop) (T : TOps S C D) (I : List (RegEvent C D) → S → Prop) : Prop where
  find : ∀ {h m}, I h m → Safe h → ∀ k, T.ops.find m k = .ok (standing h k)
  put : ∀ {h m} n fs fault, I h m → Safe h → ∃ m' threw, T.put m n ⟨n, fs⟩ fault = .ok (m', threw) ∧
    (threw = false → I (h ++ [.added n fs]) m') ∧ (threw = true → I h m' ∧ fault ≠ ⟨false, false⟩)
  erase : ∀ {h m} n, I h m → Safe (h ++ [.removed n]) → ∃ m', T.ops.erase m n = .ok m' ∧ I (h ++ [.removed n]) m'
  clear : ∀ {h m}, I h m → Safe (h ++ [.cleared]) → I (h ++ [.cleared]) (T.ops.clear m)
  all : ∀ {h m}, I h m → Safe h → ∀ id, id ∈ (T.ops.all m).flatMap Command.ids ↔ ∃ k c, standing h k = some c ∧ id ∈ c.ids

/-- The program with a list of commands. -/
def onBook (s : Sys S W C D) (b : Book C D) : Sys (Book C D) W C D := ⟨b, s.lexer, s.user, s.freed, s.next, s.calls, s.history⟩

/-- The program is this scene. -/
structure SeenAs (I : List (RegEvent C D) → S → Prop) (s : Sys S W C D) (σ : Scene W C D) : Prop where
  reg : I s.history s.reg
  pic : ∃ b, Pic (onBook s b) σ

variable {Safe : List (RegEvent C D) → Prop} {I : List (RegEvent C D) → S → Prop}

/-- The same but for the container, and for the order in which objects were destroyed. -/
theorem _root_.Coil.Pic.like {s s' : Sys (Book C D) W C D} {σ : Scene W C D} (p : Pic s σ) (h1 : s'.reg = s.reg) (h2 : s'.lexer = s.lexer)
    (h3 : s'.user = s.user) (h4 : ∀ id, id ∈ s'.freed ↔ id ∈ s.freed) (h5 : s'.next = s.next) (h6 : s'.history = s.history) : Pic s' σ :=
  ⟨by rw [h1, h6]; exact p.book, by rw [h6]; exact p.commands, h3.trans p.user, h5.trans p.made, by rw [h2]; exact p.reads,
    h6.trans p.changes, p.bound, p.only, fun id => (h4 id).trans (p.freed id)⟩

theorem SeenAs.find (m : ImplementsT Safe T I) {s : Sys S W C D} {σ : Scene W C D} (p : SeenAs I s σ) (hs : Safe s.history) (n : Bytes) :
    T.ops.find s.reg n = .ok ((σ.commands n).map (fun fs => ⟨n, fs⟩)) := by
  obtain ⟨b, hb⟩ := p.pic
  rw [m.find p.reg hs]
  exact congrArg Res.ok (hb.commands n)

theorem SeenAs.added {s : Sys S W C D} {σ : Scene W C D} (p : SeenAs I s σ) (n : Bytes) (fs : List (C × D))
    {reg : S} (hr : I (s.history ++ [.added n (allocate s.next fs)]) reg) :
    SeenAs I (added s n fs (standing s.history n) reg) (σ.add n fs) ∧ Later σ (σ.add n fs) := by
  obtain ⟨b, hb⟩ := p.pic
  obtain ⟨s1, h1, h2, h3⟩ := hb.add n fs
  refine ⟨⟨hr, s1.reg, ?_⟩, h3⟩
  have hf := (book_implements (C := C) (D := D) (fun _ => True)).find hb.book trivial n
  simp only [bindingsAdd, hf, Res.bind_ok] at h1
  obtain ⟨r, h4, h5⟩ := Res.bind_eq_ok.1 h1
  cases h5
  exact h2

theorem _root_.Coil.Later.waste (σ : Scene W C D) (n : Nat) : Later σ (σ.waste n) := ⟨Nat.le_add_right _ _, fun _ h _ => h⟩

theorem SeenAs.discarded {s : Sys S W C D} {σ : Scene W C D} (p : SeenAs I s σ) (fs : List (C × D)) {reg : S} (hr : I s.history reg) :
    SeenAs I { discard s fs with reg := reg } (σ.waste fs.length) := by
  obtain ⟨b, hb⟩ := p.pic
  refine ⟨hr, b, hb.book, hb.commands, hb.user, ?_, hb.reads, hb.changes, fun f h => ?_, hb.only, fun id => ?_⟩
  · show s.next + fs.length = σ.made + fs.length
    rw [show s.next = σ.made from hb.made]
  · exact Nat.lt_of_lt_of_le (hb.bound f h) (Nat.le_add_right _ _)
  · show id ∈ s.freed ++ (allocate s.next fs).map Inst.id ↔ id < σ.made + fs.length ∧ ∀ f, σ.Has f → f.id ≠ id
    have e : s.next = σ.made := hb.made
    have hfr : id ∈ s.freed ↔ _ := hb.freed id
    rw [List.mem_append, hfr, allocate_ids, List.mem_range'_1, e]
    constructor
    · rintro (⟨h1, h2⟩ | ⟨h1, h2⟩)
      · exact ⟨by omega, h2⟩
      · refine ⟨h2, fun f hf he => ?_⟩
        have := hb.bound f hf
        omega
    · rintro ⟨h1, h2⟩
      by_cases hlt : id < σ.made
      · exact .inl ⟨hlt, h2⟩
      · exact .inr ⟨by omega, h1⟩

/-- What `add` does, if it does it in time. -/
theorem add_sound (m : ImplementsT Safe T I) {s s' : TSys S W C D} {n : Bytes} {fs : List (C × D)} {threw : Bool}
    (h : bindingsAddT T s n fs = .ok (s', threw)) :
    s.sys.history <+: s'.sys.history ∧ (Safe s'.sys.history → (∀ a b, Safe (a ++ b) → Safe a) → ∀ {σ}, SeenAs I s.sys σ →
      (threw = false → SeenAs I s'.sys (σ.add n fs) ∧ Later σ (σ.add n fs)) ∧
      (threw = true → SeenAs I s'.sys (σ.waste fs.length) ∧ Later σ (σ.waste fs.length))) := by
  unfold bindingsAddT at h
  split at h
  · obtain ⟨old, h1, h⟩ := Res.bind_eq_ok.1 h
    obtain ⟨⟨reg, t⟩, h2, h⟩ := Res.bind_eq_ok.1 h
    cases t with
    | true =>
      cases h
      refine ⟨List.prefix_rfl, fun hs hpre σ p => ⟨fun h => (by cases h), fun _ => ?_⟩⟩
      obtain ⟨m', t', g1, _, g2⟩ := m.put n (allocate s.sys.next fs) ⟨!s.next.there, !s.next.next.there⟩ p.reg hs
      rw [g1] at h2
      cases h2
      exact ⟨p.discarded fs (g2 rfl).1, .waste σ _⟩
    | false =>
      cases h
      refine ⟨List.prefix_append _ _, fun hs hpre σ p => ⟨fun _ => ?_, fun h => (by cases h)⟩⟩
      have hs0 : Safe s.sys.history := hpre _ _ hs
      obtain ⟨m', t', g1, g2, _⟩ := m.put n (allocate s.sys.next fs) ⟨!s.next.there, !s.next.next.there⟩ p.reg hs0
      rw [g1] at h2
      cases h2
      rw [m.find p.reg hs0] at h1
      cases h1
      exact p.added n fs (g2 rfl)
  · cases h
    refine ⟨List.prefix_rfl, fun hs hpre σ p => ⟨fun h => (by cases h), fun _ => ⟨?_, .waste σ _⟩⟩⟩
    exact p.discarded fs p.reg

theorem remove_sound (m : ImplementsT Safe T I) {s s' : TSys S W C D} {n : Bytes} (h : bindingsRemoveT T s n = .ok s') :
    s.sys.history <+: s'.sys.history ∧ (Safe s'.sys.history → (∀ a b, Safe (a ++ b) → Safe a) → ∀ {σ}, SeenAs I s.sys σ →
      SeenAs I s'.sys (σ.remove n) ∧ Later σ (σ.remove n)) := by
  obtain ⟨s1, h1, h⟩ := Res.bind_eq_ok.1 h
  cases h
  obtain ⟨old, h2, h⟩ := Res.bind_eq_ok.1 h1
  obtain ⟨reg, h3, h⟩ := Res.bind_eq_ok.1 h
  cases h
  refine ⟨List.prefix_append _ _, fun hs hpre σ p => ?_⟩
  have hs0 : Safe s.sys.history := hpre _ _ hs
  obtain ⟨m', g1, g2⟩ := m.erase n p.reg hs
  rw [g1] at h3
  cases h3
  rw [m.find p.reg hs0] at h2
  cases h2
  obtain ⟨b, hb⟩ := p.pic
  obtain ⟨s1, k1, k2, k3⟩ := hb.remove n
  refine ⟨⟨g2, s1.reg, ?_⟩, k3⟩
  have hf := (book_implements (C := C) (D := D) (fun _ => True)).find hb.book trivial n
  simp only [bindingsRemove, hf, Res.bind_ok] at k1
  obtain ⟨r, h4, h5⟩ := Res.bind_eq_ok.1 k1
  cases h5
  exact k2

theorem clear_sound (m : ImplementsT Safe T I) {s : Sys S W C D} (hs : Safe (s.history ++ [.cleared])) (hpre : ∀ a b, Safe (a ++ b) → Safe a)
    {σ : Scene W C D} (p : SeenAs I s σ) : SeenAs I (bindingsClear T.ops s) σ.clear ∧ Later σ σ.clear := by
  obtain ⟨b, hb⟩ := p.pic
  refine ⟨⟨m.clear p.reg hs, (bindingsClear bookOps (onBook s b)).reg, hb.clear.1.like rfl rfl rfl (fun id => ?_) rfl rfl⟩, hb.clear.2⟩
  show id ∈ s.freed ++ (T.ops.all s.reg).flatMap Command.ids ↔ id ∈ s.freed ++ (bookOps.all b).flatMap Command.ids
  have h2 : id ∈ (bookOps.all b).flatMap Command.ids ↔ ∃ k c, standing s.history k = some c ∧ id ∈ c.ids :=
    (book_implements (C := C) (D := D) (fun _ => True)).all hb.book trivial id
  rw [List.mem_append, List.mem_append, m.all p.reg (hpre _ _ hs), h2]

theorem SeenAs.withUser {s : Sys S W C D} {σ : Scene W C D} (p : SeenAs I s σ) (w : W) :
    SeenAs I { s with user := w } { σ with user := w } := by
  obtain ⟨b, hb⟩ := p.pic
  exact ⟨p.reg, b, hb.withUser w⟩

theorem SeenAs.withCalls {s : Sys S W C D} {σ : Scene W C D} (p : SeenAs I s σ) (l : List (Nat × Nat)) : SeenAs I { s with calls := l } σ := by
  obtain ⟨b, hb⟩ := p.pic
  exact ⟨p.reg, b, hb.withCalls l⟩

theorem SeenAs.withLexer {s : Sys S W C D} {σ : Scene W C D} (p : SeenAs I s σ) (l : Option Lexer) :
    SeenAs I (setLexer s l) { σ with reads := ReadsWith l } := by
  obtain ⟨b, hb⟩ := p.pic
  exact ⟨p.reg, b, hb.withLexer l⟩

theorem SeenAs.user {s : Sys S W C D} {σ : Scene W C D} (p : SeenAs I s σ) : s.user = σ.user := by
  obtain ⟨b, hb⟩ := p.pic
  exact hb.user

theorem SeenAs.reads {s : Sys S W C D} {σ : Scene W C D} (p : SeenAs I s σ) (t : Bytes) (r : Except Bytes Input) :
    σ.reads t r ↔ ReadsWith s.lexer t r := by
  obtain ⟨b, hb⟩ := p.pic
  exact hb.reads t r

theorem SeenAs.changes {s : Sys S W C D} {σ : Scene W C D} (p : SeenAs I s σ) : s.history = σ.changes := by
  obtain ⟨b, hb⟩ := p.pic
  exact hb.changes

theorem SeenAs.known {s : Sys S W C D} {σ : Scene W C D} (p : SeenAs I s σ) {f : Inst C D} (h : σ.Has f) : Known σ f := by
  obtain ⟨b, hb⟩ := p.pic
  exact hb.known h

theorem SeenAs.alive {s : Sys S W C D} {σ : Scene W C D} (p : SeenAs I s σ) {f : Inst C D} (k : Known σ f) : f.id ∉ s.freed ↔ σ.Has f := by
  obtain ⟨b, hb⟩ := p.pic
  exact hb.alive k

/-! ## Running a body -/

/-- A computation from `s` on gives a program with the same history or more, and, if that is safe, what `Q` says about the scenes. -/
def Gives (Safe : List (RegEvent C D) → Prop) (I : List (RegEvent C D) → S → Prop) (s s' : TSys S W C D)
    (Q : Scene W C D → Scene W C D → Prop) : Prop :=
  s.sys.history <+: s'.sys.history ∧ (Safe s'.sys.history → ∀ {σ}, SeenAs I s.sys σ → ∃ σ', Q σ σ' ∧ SeenAs I s'.sys σ' ∧ Later σ σ')

/-- What the nested `execute` functions do has a meaning. -/
def NeSoundT (Safe : List (RegEvent C D) → Prop) (I : List (RegEvent C D) → S → Prop) (P : C → TDef W C D) (catching : Bool)
    (ne : TNested S W C D) : Prop :=
  ∀ req s s' out, ne.exec s req = .ok (s', out) → Gives Safe I s s' (fun σ σ' => PerformsT P catching σ req σ' out)

theorem safe_before (hpre : ∀ a b, Safe (a ++ b) → Safe a) {a b : List (RegEvent C D)} (h : a <+: b) (hs : Safe b) : Safe a := by
  obtain ⟨t, rfl⟩ := h
  exact hpre _ t hs

theorem run_sound (m : ImplementsT Safe T I) (hpre : ∀ a b, Safe (a ++ b) → Safe a) {ne : TNested S W C D} (hne : NeSoundT Safe I P catching ne)
    {self : Inst C D} {c0 : CallCtx} (h0 : c0.result.errors = []) {R : Type} (p : TProg W C D R) :
    ∀ {past : List CtxEvent} {s s' : TSys S W C D} {c' : CallCtx} {e : End R}, p.run T ne self s (after c0 past) = .ok (s', c', e) →
      s.sys.history <+: s'.sys.history ∧ (Safe s'.sys.history → ∀ {σ}, SeenAs I s.sys σ → Known σ self →
        ∃ es σ', DoesT P catching self c0.input.namedArguments past p σ es e σ' ∧ c' = after c0 (past ++ es) ∧ SeenAs I s'.sys σ' ∧
          Later σ σ') := by
  have herr : ∀ past, (after c0 past).hasErrors = decide (errorsOf past ≠ []) := by simp [after, CallCtx.hasErrors, h0]
  induction p with
  | ret r =>
    intro past s s' c' e h
    cases h
    exact ⟨List.prefix_rfl, fun _ σ p _ => ⟨[], σ, .ret, by simp, p, .refl σ⟩⟩
  | throw x =>
    intro past s s' c' e h
    cases h
    exact ⟨List.prefix_rfl, fun _ σ p _ => ⟨[], σ, .throw, by simp, p, .refl σ⟩⟩
  | ub w => intro past s s' c' e h; cases h
  | diverge => intro past s s' c' e h; cases h
  | alloc k ih =>
    intro past s s' c' e h
    obtain ⟨h1, h2⟩ := ih _ h
    refine ⟨h1, fun hs σ p k => ?_⟩
    obtain ⟨es, σ', g1, g2⟩ := h2 hs p k
    exact ⟨es, σ', .alloc _ g1, g2⟩
  | log t k ih =>
    intro past s s' c' e h
    simp only [TProg.run] at h
    split at h
    · rw [after_log] at h
      obtain ⟨h1, h2⟩ := ih _ h
      refine ⟨h1, fun hs σ p k => ?_⟩
      obtain ⟨es, σ', g1, g2, g3⟩ := h2 hs p k
      exact ⟨_, σ', .log g1, by simp [g2], g3⟩
    · obtain ⟨h1, h2⟩ := ih _ h
      refine ⟨h1, fun hs σ p k => ?_⟩
      obtain ⟨es, σ', g1, g2⟩ := h2 hs p k
      exact ⟨es, σ', .logThrew g1, g2⟩
  | logline t k ih =>
    intro past s s' c' e h
    simp only [TProg.run] at h
    split at h
    · rw [after_logline] at h
      obtain ⟨h1, h2⟩ := ih _ h
      refine ⟨h1, fun hs σ p k => ?_⟩
      obtain ⟨es, σ', g1, g2, g3⟩ := h2 hs p k
      exact ⟨_, σ', .logline g1, by simp [g2], g3⟩
    · obtain ⟨h1, h2⟩ := ih _ h
      refine ⟨h1, fun hs σ p k => ?_⟩
      obtain ⟨es, σ', g1, g2⟩ := h2 hs p k
      exact ⟨es, σ', .loglineThrew g1, g2⟩
  | reportError t k ih =>
    intro past s s' c' e h
    simp only [TProg.run] at h
    split at h
    · rw [after_reportError] at h
      obtain ⟨h1, h2⟩ := ih _ h
      refine ⟨h1, fun hs σ p k => ?_⟩
      obtain ⟨es, σ', g1, g2, g3⟩ := h2 hs p k
      exact ⟨_, σ', .reportError g1, by simp [g2], g3⟩
    · obtain ⟨h1, h2⟩ := ih _ h
      refine ⟨h1, fun hs σ p k => ?_⟩
      obtain ⟨es, σ', g1, g2⟩ := h2 hs p k
      exact ⟨es, σ', .reportErrorThrew g1, g2⟩
  | hasErrors k ih =>
    intro past s s' c' e h
    simp only [TProg.run, herr] at h
    obtain ⟨h1, h2⟩ := ih _ h
    refine ⟨h1, fun hs σ p k => ?_⟩
    obtain ⟨es, σ', g1, g2⟩ := h2 hs p k
    exact ⟨es, σ', .hasErrors g1, g2⟩
  | named k ih =>
    intro past s s' c' e h
    obtain ⟨h1, h2⟩ := ih _ h
    refine ⟨h1, fun hs σ p k => ?_⟩
    obtain ⟨es, σ', g1, g2⟩ := h2 hs p k
    exact ⟨es, σ', .named g1, g2⟩
  | setNamed i v k ih =>
    intro past s s' c' e h
    simp only [TProg.run, after_setNamed] at h
    split at h
    · rename_i hi
      obtain ⟨h1, h2⟩ := ih h
      refine ⟨h1, fun hs σ p k => ?_⟩
      obtain ⟨es, σ', g1, g2, g3⟩ := h2 hs p k
      exact ⟨_, σ', .setNamed hi g1, by simp [g2], g3⟩
    · cases h
  | get k ih =>
    intro past s s' c' e h
    obtain ⟨h1, h2⟩ := ih _ h
    refine ⟨h1, fun hs σ p k => ?_⟩
    obtain ⟨es, σ', g1, g2⟩ := h2 hs p k
    exact ⟨es, σ', .get (p.user ▸ g1), g2⟩
  | set w k ih =>
    intro past s s' c' e h
    obtain ⟨h1, h2⟩ := ih h
    refine ⟨h1, fun hs σ p k => ?_⟩
    obtain ⟨es, σ', g1, g2, g3, g4⟩ := h2 hs (p.withUser w) k
    exact ⟨es, σ', .set g1, g2, g3, ⟨g4.made, g4.old⟩⟩
  | captured k ih =>
    intro past s s' c' e h
    simp only [TProg.run] at h
    split at h
    · cases h
    · rename_i hf
      obtain ⟨h1, h2⟩ := ih _ h
      refine ⟨h1, fun hs σ p k => ?_⟩
      obtain ⟨es, σ', g1, g2⟩ := h2 hs p k
      exact ⟨es, σ', .captured ((p.alive k).1 hf) g1, g2⟩
  | add n fs k ih =>
    intro past s s' c' e h
    obtain ⟨⟨s1, t⟩, h1, h⟩ := Res.bind_eq_ok.1 h
    obtain ⟨a1, a2⟩ := add_sound m h1
    obtain ⟨b1, b2⟩ := ih _ h
    refine ⟨a1.trans b1, fun hs σ p k => ?_⟩
    have ha := a2 (safe_before hpre b1 hs) hpre p
    cases t with
    | false =>
      obtain ⟨c1, c2⟩ := ha.1 rfl
      obtain ⟨es, σ', g1, g2, g3, g4⟩ := b2 hs c1 (k.later c2)
      exact ⟨es, σ', .add g1, g2, g3, c2.trans g4⟩
    | true =>
      obtain ⟨c1, c2⟩ := ha.2 rfl
      obtain ⟨es, σ', g1, g2, g3, g4⟩ := b2 hs c1 (k.later c2)
      exact ⟨es, σ', .addThrew g1, g2, g3, c2.trans g4⟩
  | remove n k ih =>
    intro past s s' c' e h
    obtain ⟨s1, h1, h⟩ := Res.bind_eq_ok.1 h
    obtain ⟨a1, a2⟩ := remove_sound m h1
    obtain ⟨b1, b2⟩ := ih h
    refine ⟨a1.trans b1, fun hs σ p k => ?_⟩
    obtain ⟨c1, c2⟩ := a2 (safe_before hpre b1 hs) hpre p
    obtain ⟨es, σ', g1, g2, g3, g4⟩ := b2 hs c1 (k.later c2)
    exact ⟨es, σ', .remove g1, g2, g3, c2.trans g4⟩
  | clear k ih =>
    intro past s s' c' e h
    obtain ⟨b1, b2⟩ := ih h
    refine ⟨(List.prefix_append _ _).trans b1, fun hs σ p k => ?_⟩
    obtain ⟨c1, c2⟩ := clear_sound m (safe_before hpre b1 hs) hpre p
    obtain ⟨es, σ', g1, g2, g3, g4⟩ := b2 hs c1 (k.later c2)
    exact ⟨es, σ', .clear g1, g2, g3, c2.trans g4⟩
  | execLine t k ih =>
    intro past s s' c' e h
    obtain ⟨⟨s1, o⟩, h1, h⟩ := Res.bind_eq_ok.1 h
    obtain ⟨a1, a2⟩ := hne (.line t) _ _ _ h1
    obtain ⟨b1, b2⟩ := ih _ h
    refine ⟨a1.trans b1, fun hs σ p k => ?_⟩
    obtain ⟨σ1, c0, c1, c2⟩ := a2 (safe_before hpre b1 hs) p
    obtain ⟨es, σ', g1, g2, g3, g4⟩ := b2 hs c1 (k.later c2)
    exact ⟨es, σ', .execLine c0 g1, g2, g3, c2.trans g4⟩
  | execInput i k ih =>
    intro past s s' c' e h
    obtain ⟨⟨s1, o⟩, h1, h⟩ := Res.bind_eq_ok.1 h
    obtain ⟨a1, a2⟩ := hne (.input i) _ _ _ h1
    obtain ⟨b1, b2⟩ := ih _ h
    refine ⟨a1.trans b1, fun hs σ p k => ?_⟩
    obtain ⟨σ1, c0, c1, c2⟩ := a2 (safe_before hpre b1 hs) p
    obtain ⟨es, σ', g1, g2, g3, g4⟩ := b2 hs c1 (k.later c2)
    exact ⟨es, σ', .execInput c0 g1, g2, g3, c2.trans g4⟩

/-! ## Calling -/

theorem convertT_sound (all : List Value) (ps : List Param) (as : List Value) (i : Nat) (hall : all.drop i = as) (hl : ps.length = as.length)
    {s s' : TSys S W C D} {o : Option (Expecteds ps)} (h : convertT all ps i s = .ok (s', o)) :
    s'.sys = s.sys ∧ (o = none → ∃ n, n < as.length ∧ ConversionsDefined (ps.take (n + 1)) (as.take (n + 1))) ∧
      ∀ es, o = some es → convertArgs all ps i = .ok es := by
  induction ps generalizing as i s s' with
  | nil =>
    cases h
    exact ⟨rfl, fun h => (by cases h), fun es h => (by cases h; rfl)⟩
  | cons p ps ih =>
    cases as with
    | nil => simp at hl
    | cons a as =>
      have hi : all[i]? = some a := by
        have := congrArg (·[0]?) hall
        simpa using this
      have hdrop : all.drop (i + 1) = as := by
        have := congrArg List.tail hall
        simpa using this
      simp only [convertT, readAt, hi, Res.bind_ok] at h
      obtain ⟨r, h1, h⟩ := Res.bind_eq_ok.1 h
      split at h
      · obtain ⟨⟨s1, o1⟩, h2, h⟩ := Res.bind_eq_ok.1 h
        obtain ⟨g1, g2, g3⟩ := ih as (i + 1) hdrop (by simpa using hl) h2
        cases o1 with
        | none =>
          cases h
          refine ⟨g1, fun _ => ?_, fun es h => (by cases h)⟩
          obtain ⟨n, k1, k2⟩ := g2 rfl
          exact ⟨n + 1, by simpa using k1, ⟨r, h1⟩, k2⟩
        | some rest =>
          cases h
          refine ⟨g1, fun h => (by cases h), fun es h => ?_⟩
          cases h
          simp only [convertArgs, readAt, hi, Res.bind_ok, h1, g3 rest rfl]
      · cases h
        refine ⟨rfl, fun _ => ⟨0, by simp, ⟨⟨r, h1⟩, ?_⟩⟩, fun es h => (by cases h)⟩
        simp [ConversionsDefined]

/-- The context with more errors. -/
def withErrors (c : CallCtx) (l : List Bytes) : CallCtx := { c with result := { c.result with errors := c.result.errors ++ l } }

theorem reportT_sound (all : List Value) (ps : List Param) (as : List Value) (i : Nat) (hall : all.drop i = as) (hl : ps.length = as.length)
    {es : Expecteds ps} (h : convertArgs all ps i = .ok es) (s : TSys S W C D) (c : CallCtx) :
    (reportT ps es s c).1.sys = s.sys ∧
      ((reportT ps es s c).2.2 = false → (reportT ps es s c).2.1 = withErrors c (conversionErrors ps as)) ∧
      ((reportT ps es s c).2.2 = true → ∃ n, n < (conversionErrors ps as).length ∧
        (reportT ps es s c).2.1 = withErrors c ((conversionErrors ps as).take n)) := by
  induction ps generalizing as i s c with
  | nil =>
    cases as with
    | nil => exact ⟨rfl, fun _ => by simp [reportT, withErrors, conversionErrors], fun h => (by cases h)⟩
    | cons a as => simp at hl
  | cons p ps ih =>
    cases as with
    | nil => simp at hl
    | cons a as =>
      have hi : all[i]? = some a := by
        have := congrArg (·[0]?) hall
        simpa using this
      have hdrop : all.drop (i + 1) = as := by
        have := congrArg List.tail hall
        simpa using this
      simp only [convertArgs, readAt, hi, Res.bind_ok] at h
      obtain ⟨r, h1, h⟩ := Res.bind_eq_ok.1 h
      obtain ⟨rest, h2, h⟩ := Res.bind_eq_ok.1 h
      cases h
      cases r with
      | ok x =>
        have := ih as (i + 1) hdrop (by simpa using hl) h2 s c
        simpa only [reportT, conversionErrors, h1] using this
      | error e =>
        simp only [reportT, conversionErrors, h1]
        split
        · obtain ⟨g1, g2, g3⟩ := ih as (i + 1) hdrop (by simpa using hl) h2 s.next (c.reportError e)
          refine ⟨g1, fun h => ?_, fun h => ?_⟩
          · rw [g2 h]
            simp [withErrors, CallCtx.reportError]
          · obtain ⟨n, k1, k2⟩ := g3 h
            refine ⟨n + 1, by simpa using k1, ?_⟩
            rw [k2]
            simp [withErrors, CallCtx.reportError]
        · exact ⟨rfl, fun h => (by cases h), fun _ => ⟨0, by simp, by simp [withErrors]⟩⟩

theorem selectT_some {n : Nat} {fs : List (Inst C D)} {f : Inst C D} : selectT P n fs = some f ↔ FirstFor P n fs f := by
  induction fs with
  | nil =>
    constructor
    · intro h; cases h
    · rintro ⟨pre, post, h, _⟩
      simp at h
  | cons g fs ih =>
    rw [selectT]
    split
    · rename_i hg
      constructor
      · intro h
        cases h
        exact ⟨[], fs, rfl, hg, by simp⟩
      · rintro ⟨pre, post, h, h1, h2⟩
        cases pre with
        | nil => simp at h; rw [h.1]
        | cons x pre =>
          simp at h
          exact absurd hg (by rw [h.1]; exact h2 x (by simp))
    · rename_i hg
      rw [ih]
      constructor
      · rintro ⟨pre, post, h, h1, h2⟩
        refine ⟨g :: pre, post, by simp [h], h1, ?_⟩
        intro y hy
        rcases List.mem_cons.1 hy with rfl | hy
        · exact hg
        · exact h2 y hy
      · rintro ⟨pre, post, h, h1, h2⟩
        cases pre with
        | nil => simp at h; exact absurd h1 (by rw [← h.1]; exact hg)
        | cons x pre =>
          simp at h
          exact ⟨pre, post, h.2, h1, fun y hy => h2 y (by simp [hy])⟩

theorem selectT_none {n : Nat} {fs : List (Inst C D)} : selectT P n fs = none ↔ ∀ g ∈ fs, (P g.code).params.length ≠ n := by
  induction fs with
  | nil => simp [selectT]
  | cons g fs ih =>
    rw [selectT]
    split
    · rename_i hg
      simp only [reduceCtorEq, false_iff]
      intro h
      exact h g (by simp) hg
    · rename_i hg
      rw [ih]
      simp only [List.mem_cons, forall_eq_or_imp]
      exact ⟨fun h => ⟨hg, h⟩, fun h => h.2⟩

theorem countErrorT_eq (name : Bytes) (fs : List (Inst C D)) (n : Nat) :
    countErrorT P name fs n = lit "Wrong number of arguments to '" ++ upToNul name ++ lit "': expected " ++
      countsInWords (fs.map (fun g => (P g.code).params.length)) ++ lit ", got " ++ natDec n := by
  have h : fs.map (arityT P) = fs.map (fun f => (P f.code).params.length) := rfl
  simp only [countErrorT, h, counts_spec, cstr_of_nulFree (countsInWords_nulFree _)]
  rfl

/-- The end of `execute`: the result, or the exception. -/
def outOf (c : CallCtx) : Option Exn → ExecOut
  | some e => .error e
  | none => .ok { c.result with input := c.input }

theorem executeInputT_eq {ne : TNested S W C D} {depth : Nat} {s : TSys S W C D} {i : Input} :
    executeInputT P T catching ne depth s i =
      (executeCtxT P T catching ne depth s ⟨i, ExecResult.empty⟩).bind (fun x => .ok (x.1, outOf x.2.1 x.2.2)) := by
  unfold executeInputT
  cases executeCtxT P T catching ne depth s ⟨i, ExecResult.empty⟩ with
  | ub u => rfl
  | diverge => rfl
  | ok x =>
    obtain ⟨s', c, e⟩ := x
    cases e <;> rfl

theorem handleT_sound (s : TSys S W C D) (c : CallCtx) (x : Exn) :
    (handleT catching s c (some x)).1.sys = s.sys ∧
      Raised catching x { c.result with input := c.input } (outOf (handleT catching s c (some x)).2.1 (handleT catching s c (some x)).2.2) := by
  cases x with
  | std w =>
    cases catching with
    | false => exact ⟨rfl, .passed rfl⟩
    | true =>
      simp only [handleT, if_true, tellT]
      split
      · exact ⟨rfl, .caught rfl⟩
      · exact ⟨rfl, .lost rfl⟩
  | other =>
    cases catching with
    | false => exact ⟨rfl, .passed rfl⟩
    | true =>
      simp only [handleT, if_true, tellT]
      split
      · exact ⟨rfl, .caught rfl⟩
      · exact ⟨rfl, .lost rfl⟩

theorem tellT_cases (s : TSys S W C D) (i : Input) (e : Bytes) :
    tellT s ⟨i, ExecResult.empty⟩ e = (s.next, ⟨i, ⟨Input.empty, [e], none, []⟩⟩, none) ∨
      tellT s ⟨i, ExecResult.empty⟩ e = (s.next, ⟨i, ExecResult.empty⟩, some badAlloc) := by
  unfold tellT
  split
  · exact .inl rfl
  · exact .inr rfl

theorem gives_same {s s' : TSys S W C D} {Q : Scene W C D → Scene W C D → Prop} (he : s'.sys = s.sys)
    (h : Safe s.sys.history → ∀ {σ}, SeenAs I s.sys σ → Q σ σ) : Gives Safe I s s' Q := by
  refine ⟨by rw [he]; exact List.prefix_rfl, fun hs {σ} p => ⟨σ, ?_, by rw [he]; exact p, .refl σ⟩⟩
  rw [he] at hs
  exact h hs p

theorem told_sound {s : TSys S W C D} {i : Input} {e : Bytes}
    (hr : Safe s.sys.history → ∀ {σ}, SeenAs I s.sys σ → Refused P σ i e) :
    Gives Safe I s (tellT s ⟨i, ExecResult.empty⟩ e).1
      (fun σ σ' => PerformsT P catching σ (.input i) σ'
        (outOf (tellT s ⟨i, ExecResult.empty⟩ e).2.1 (tellT s ⟨i, ExecResult.empty⟩ e).2.2)) := by
  rcases tellT_cases s i e with h | h <;> rw [h]
  · exact gives_same rfl fun hs σ p => .refused (hr hs p)
  · exact gives_same rfl fun hs σ p => .untold (hr hs p)

theorem input_sound (m : ImplementsT Safe T I) (hpre : ∀ a b, Safe (a ++ b) → Safe a) {ne : TNested S W C D} (hne : NeSoundT Safe I P catching ne)
    {depth : Nat} {i : Input} {s s' : TSys S W C D} {out : ExecOut} (h : executeInputT P T catching ne depth s i = .ok (s', out)) :
    Gives Safe I s s' (fun σ σ' => PerformsT P catching σ (.input i) σ' out) := by
  rw [executeInputT_eq] at h
  obtain ⟨⟨s1, c1, e1⟩, h1, h⟩ := Res.bind_eq_ok.1 h
  simp only [Res.ok.injEq, Prod.mk.injEq] at h
  obtain ⟨rfl, rfl⟩ := h
  unfold executeCtxT at h1
  split at h1
  · rename_i hn
    have := told_sound (P := P) (catching := catching) (i := i) (e := lit "No function name is specified") (Safe := Safe) (I := I) (s := s)
      (fun _ _ _ => .noName hn)
    simp only [Res.ok.injEq] at h1
    rw [h1] at this
    exact this
  · rename_i hn
    obtain ⟨o, h2, h1⟩ := Res.bind_eq_ok.1 h1
    cases o with
    | none =>
      have := told_sound (P := P) (catching := catching) (i := i) (e := lit "No function '" ++ cstr i.name ++ lit "' is registered")
        (Safe := Safe) (I := I) (s := s) (fun hs σ p => .unknown hn (by
          rw [p.find m hs] at h2
          cases hc : σ.commands i.name with
          | none => rfl
          | some fs => rw [hc] at h2; cases h2))
      simp only [Res.ok.injEq] at h1
      rw [h1] at this
      exact this
    | some cmd =>
      have hcom : Safe s.sys.history → ∀ {σ}, SeenAs I s.sys σ → σ.commands i.name = some cmd.functors := by
        intro hs σ p
        rw [p.find m hs] at h2
        cases hc : σ.commands i.name with
        | none => rw [hc] at h2; cases h2
        | some fs => rw [hc] at h2; cases h2; rfl
      simp only at h1
      split at h1
      · rename_i f hf
        have hff := selectT_some.1 hf
        have hcalls : Safe s.sys.history → ∀ {σ}, SeenAs I s.sys σ → Calls P σ i f := fun hs σ p => ⟨hn, _, hcom hs p, hff⟩
        have hlen : (P f.code).params.length = i.arguments.length := by
          obtain ⟨_, _, _, h, _⟩ := hff
          exact h
        obtain ⟨⟨s2, c2, e2⟩, h3, h1⟩ := Res.bind_eq_ok.1 h1
        simp only [Res.ok.injEq] at h1
        unfold invokeT at h3
        split at h3
        · cases h3
        · obtain ⟨⟨s3, o3⟩, h4, h3⟩ := Res.bind_eq_ok.1 h3
          obtain ⟨g1, g2, g3⟩ := convertT_sound _ _ i.arguments 0 (by simp) hlen h4
          cases o3 with
          | none =>
            simp only [Res.ok.injEq, Prod.mk.injEq] at h3
            obtain ⟨rfl, rfl, rfl⟩ := h3
            obtain ⟨k1, k2⟩ := handleT_sound (catching := catching) s3 ⟨i, ExecResult.empty⟩ badAlloc
            rw [h1] at k1 k2
            obtain ⟨n, n1, n2⟩ := g2 rfl
            exact gives_same (k1.trans g1) fun hs σ p => .unconverted (hcalls hs p) n1 n2 k2
          | some es =>
            have hes := g3 es rfl
            have hd : ConversionsDefined (P f.code).params i.arguments := convert_ok _ _ _ 0 (by simp) hlen hes
            simp only at h3
            obtain ⟨es', q1, q2, _, q4, q5⟩ := convert_spec _ _ hd 0 i.arguments (by simp)
            have hee : (Res.ok es : Res _) = .ok es' := hes.symm.trans q1
            cases hee
            split at h3
            · rename_i hm
              obtain ⟨r1, r2, r3⟩ := reportT_sound i.arguments _ i.arguments 0 (by simp) hlen hes s3 ⟨i, ExecResult.empty⟩
              simp only [Res.ok.injEq, Prod.mk.injEq] at h3
              obtain ⟨rfl, rfl, rfl⟩ := h3
              have hce : conversionErrors (P f.code).params i.arguments ≠ [] := q2.1 hm
              cases ht : (reportT (P f.code).params es s3 ⟨i, ExecResult.empty⟩).2.2 with
              | false =>
                rw [ht] at h1
                simp only [thrown, handleT, r2 ht, Prod.mk.injEq, Bool.false_eq_true, if_false] at h1
                obtain ⟨rfl, rfl, rfl⟩ := h1
                refine gives_same (r1.trans g1) fun hs σ p => ?_
                exact .mismatch (hcalls hs p) hd hce
              | true =>
                rw [ht] at h1
                obtain ⟨n, n1, n2⟩ := r3 ht
                have hx : thrown true = some badAlloc := rfl
                rw [hx, n2] at h1
                obtain ⟨k1, k2⟩ := handleT_sound (catching := catching) (reportT (P f.code).params es s3 ⟨i, ExecResult.empty⟩).1
                  (withErrors ⟨i, ExecResult.empty⟩ ((conversionErrors (P f.code).params i.arguments).take n)) badAlloc
                rw [h1] at k1 k2
                exact gives_same (k1.trans (r1.trans g1)) fun hs σ p => .unreported (hcalls hs p) hd n1 k2
            · rename_i hm
              have hce : conversionErrors (P f.code).params i.arguments = [] := by
                cases hx : conversionErrors (P f.code).params i.arguments with
                | nil => rfl
                | cons a l => exact absurd (q2.2 (by rw [hx]; simp)) hm
              obtain ⟨xs, hxs⟩ := q5 hce
              rw [show takeValues _ es = .ok xs from q4 xs hxs, Res.bind_ok] at h3
              obtain ⟨⟨s4, c4, r⟩, h5, h3⟩ := Res.bind_eq_ok.1 h3
              simp only [Res.ok.injEq] at h3
              have h5' : ((P f.code).body xs).run T ne f (s3.on { s3.sys with calls := s3.sys.calls ++ [(depth, f.id)] })
                  (after ⟨i, ExecResult.empty⟩ []) = .ok (s4, c4, r) := by rw [after_nil]; exact h5
              obtain ⟨a1, a2⟩ := run_sound m hpre hne (c0 := ⟨i, ExecResult.empty⟩) rfl _ h5'
              have e3 : (s3.on { s3.sys with calls := s3.sys.calls ++ [(depth, f.id)] }).sys.history = s.sys.history := by
                show s3.sys.history = _
                rw [g1]
              rw [e3] at a1
              have seen : ∀ {σ}, SeenAs I s.sys σ → SeenAs I (s3.on { s3.sys with calls := s3.sys.calls ++ [(depth, f.id)] }).sys σ := by
                intro σ p
                have := p.withCalls (s.sys.calls ++ [(depth, f.id)])
                show SeenAs I { s3.sys with calls := s3.sys.calls ++ [(depth, f.id)] } σ
                rw [g1]
                exact this
              have main : ∀ {st : TSys S W C D} {out : ExecOut}, st.sys = s4.sys →
                  (∀ σ σ' ces, Calls P σ i f → DoesT P catching f i.namedArguments [] ((P f.code).body xs) σ ces r σ' →
                    c4 = after ⟨i, ExecResult.empty⟩ ces → PerformsT P catching σ (.input i) σ' out) →
                  Gives Safe I s st (fun σ σ' => PerformsT P catching σ (.input i) σ' out) := by
                intro st out hst hq
                refine ⟨by rw [hst]; exact a1, fun hs {σ} p => ?_⟩
                rw [hst] at hs
                have hs0 := safe_before hpre a1 hs
                have hc := hcalls hs0 p
                obtain ⟨ces, σ', b1, b2, b3, b4⟩ := a2 hs (seen p) (p.known ⟨_, _, hcom hs0 p, by
                  obtain ⟨pre, post, e, _⟩ := hff
                  rw [e]; simp⟩)
                exact ⟨σ', hq σ σ' ces hc b1 (by simpa using b2), by rw [hst]; exact b3, b4⟩
              cases r with
              | exn x =>
                simp only [storeT, Prod.mk.injEq] at h3
                obtain ⟨rfl, rfl, rfl⟩ := h3
                obtain ⟨k1, k2⟩ := handleT_sound (catching := catching) s4 c4 x
                rw [h1] at k1 k2
                refine main k1 fun σ σ' ces hc hdo hc4 => ?_
                subst hc4
                exact .threw hc hxs hdo (by simpa [after, sofar, ExecResult.empty] using k2)
              | ret v =>
                simp only [storeT] at h3
                cases hp : (P f.code).print with
                | none =>
                  simp only [hp, Prod.mk.injEq] at h3
                  obtain ⟨rfl, rfl, rfl⟩ := h3
                  simp only [handleT, Prod.mk.injEq] at h1
                  obtain ⟨rfl, rfl, rfl⟩ := h1
                  refine main rfl fun σ σ' ces hc hdo hc4 => ?_
                  subst hc4
                  have := PerformsT.returned hc hxs hdo
                  rw [hp] at this
                  by_cases hce : errorsOf ces = []
                  · simpa [after, sofar, ExecResult.empty, outOf, CallCtx.hasErrors, hce] using this
                  · simpa [after, sofar, ExecResult.empty, outOf, CallCtx.hasErrors, hce] using this
                | some pr =>
                  simp only [hp] at h3
                  split at h3
                  · simp only [Prod.mk.injEq] at h3
                    obtain ⟨rfl, rfl, rfl⟩ := h3
                    simp only [handleT, Prod.mk.injEq] at h1
                    obtain ⟨rfl, rfl, rfl⟩ := h1
                    refine main rfl fun σ σ' ces hc hdo hc4 => ?_
                    subst hc4
                    have := PerformsT.returned hc hxs hdo
                    rw [hp] at this
                    by_cases hce : errorsOf ces = []
                    · simpa [after, sofar, ExecResult.empty, outOf, CallCtx.hasErrors, hce] using this
                    · simpa [after, sofar, ExecResult.empty, outOf, CallCtx.hasErrors, hce] using this
                  · simp only [Prod.mk.injEq] at h3
                    obtain ⟨rfl, rfl, rfl⟩ := h3
                    obtain ⟨k1, k2⟩ := handleT_sound (catching := catching) s4.next c4 badAlloc
                    rw [h1] at k1 k2
                    refine main k1 fun σ σ' ces hc hdo hc4 => ?_
                    subst hc4
                    exact .unprinted hc hxs hdo (by rw [hp]; rfl) (by simpa [after, sofar, ExecResult.empty, badAlloc, outOfMemory] using k2)
      · rename_i hf
        have := told_sound (P := P) (catching := catching) (i := i) (e := countErrorT P i.name cmd.functors i.arguments.length)
          (Safe := Safe) (I := I) (s := s) (fun hs σ p => by
            rw [countErrorT_eq]
            exact .count hn (hcom hs p) (selectT_none.1 hf))
        simp only [Res.ok.injEq] at h1
        rw [h1] at this
        exact this

theorem nested_sound (m : ImplementsT Safe T I) (hpre : ∀ a b, Safe (a ++ b) → Safe a) (fuel depth : Nat) :
    NeSoundT Safe I P catching (nestedT P T catching fuel depth) := by
  induction fuel generalizing depth with
  | zero =>
    intro req s s' out h
    cases req <;> cases h
  | succ fuel ih =>
    intro req s s' out h
    cases req with
    | input i => exact input_sound m hpre (ih (depth + 1)) h
    | line t =>
      replace h : executeLineT P T catching (nestedT P T catching fuel (depth + 1)) depth s t = .ok (s', out) := h
      unfold executeLineT at h
      split at h
      · cases h
      · rename_i l hl
        obtain ⟨r, h1, h⟩ := Res.bind_eq_ok.1 h
        have hr : ∀ {σ}, SeenAs I s.sys σ → σ.reads t r := fun p => (p.reads t r).2 ⟨l, hl, h1⟩
        split at h
        · cases r with
          | error e =>
            simp only at h
            split at h
            · cases h
              exact gives_same rfl fun _ σ p => .wrong (hr p)
            · cases h
              exact gives_same rfl fun _ σ p => .unread (hr p)
          | ok i =>
            have := input_sound m hpre (ih (depth + 1)) h
            refine ⟨this.1, fun hs σ p => ?_⟩
            obtain ⟨σ', k1, k2⟩ := this.2 hs p
            exact ⟨σ', .line (hr p) k1, k2⟩
        · cases h
          exact gives_same rfl fun _ σ p => .unread (hr p)

theorem main_sound (m : ImplementsT Safe T I) (hpre : ∀ a b, Safe (a ++ b) → Safe a) {fuel : Nat} (main : TMain W C D) :
    ∀ {s s' : TSys S W C D} {outs : List (Option ExecOut)}, mainT P T catching fuel s main = .ok (s', outs) →
      Gives Safe I s s' (fun σ σ' => CourseT P catching σ main outs σ') := by
  induction main with
  | stop =>
    intro s s' outs h
    cases h
    exact gives_same rfl fun _ _ _ => .stop
  | act a next ih =>
    intro s s' outs h
    simp only [mainT] at h
    obtain ⟨⟨s1, o1⟩, h1, h⟩ := Res.bind_eq_ok.1 h
    obtain ⟨⟨s2, o2⟩, h2, h⟩ := Res.bind_eq_ok.1 h
    cases h
    obtain ⟨b1, b2⟩ := ih _ h2
    cases a with
    | add n fs =>
      simp only [actT] at h1
      obtain ⟨⟨s3, t⟩, h3, h1⟩ := Res.bind_eq_ok.1 h1
      cases h1
      obtain ⟨a1, a2⟩ := add_sound m h3
      refine ⟨a1.trans b1, fun hs σ p => ?_⟩
      have ha := a2 (safe_before hpre b1 hs) hpre p
      cases t with
      | false =>
        obtain ⟨c1, c2⟩ := ha.1 rfl
        obtain ⟨σ', g1, g2, g3⟩ := b2 hs c1
        exact ⟨σ', .add g1, g2, c2.trans g3⟩
      | true =>
        obtain ⟨c1, c2⟩ := ha.2 rfl
        obtain ⟨σ', g1, g2, g3⟩ := b2 hs c1
        exact ⟨σ', .addThrew g1, g2, c2.trans g3⟩
    | remove n =>
      simp only [actT] at h1
      obtain ⟨s3, h3, h1⟩ := Res.bind_eq_ok.1 h1
      cases h1
      obtain ⟨a1, a2⟩ := remove_sound m h3
      refine ⟨a1.trans b1, fun hs σ p => ?_⟩
      obtain ⟨c1, c2⟩ := a2 (safe_before hpre b1 hs) hpre p
      obtain ⟨σ', g1, g2, g3⟩ := b2 hs c1
      exact ⟨σ', .remove g1, g2, c2.trans g3⟩
    | clear =>
      cases h1
      refine ⟨(List.prefix_append _ _).trans b1, fun hs σ p => ?_⟩
      obtain ⟨c1, c2⟩ := clear_sound m (safe_before hpre b1 hs) hpre p
      obtain ⟨σ', g1, g2, g3⟩ := b2 hs c1
      exact ⟨σ', .clear g1, g2, c2.trans g3⟩
    | setLexer l =>
      cases h1
      refine ⟨b1, fun hs σ p => ?_⟩
      obtain ⟨σ', g1, g2, g3⟩ := b2 hs (p.withLexer l)
      exact ⟨σ', .setLexer g1, g2, ⟨g3.made, g3.old⟩⟩
    | exec req =>
      simp only [actT] at h1
      obtain ⟨⟨s3, o⟩, h3, h1⟩ := Res.bind_eq_ok.1 h1
      cases h1
      obtain ⟨a1, a2⟩ := nested_sound m hpre fuel 0 req _ _ _ h3
      refine ⟨a1.trans b1, fun hs σ p => ?_⟩
      obtain ⟨σ1, c0, c1, c2⟩ := a2 (safe_before hpre b1 hs) p
      obtain ⟨σ', g1, g2, g3⟩ := b2 hs c1
      exact ⟨σ', .exec c0 g1, g2, c2.trans g3⟩
    | setUser w =>
      cases h1
      refine ⟨b1, fun hs σ p => ?_⟩
      obtain ⟨σ', g1, g2, g3⟩ := b2 hs (p.withUser w)
      exact ⟨σ', .setUser g1, g2, ⟨g3.made, g3.old⟩⟩

end Oom
end Coil
