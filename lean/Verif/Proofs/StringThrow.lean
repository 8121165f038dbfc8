import Verif.Proofs.StrProg
import Verif.Spec.StringThrow

/-! # Strings when memory runs out: lemmas for C92 -/

namespace Coil
namespace Str
open Spec Mem
open Vec (Fuse newBufT Thrown tick)

/-- Whether one allocation succeeds, if there is one. -/
def ask (a : Bool) (f : Fuse) : Option Fuse := if a then tick f else some f

/-- `r` is `x` with at most one allocation (`a`), made before anything is changed. -/
def Once (a : Bool) (m : Mem UInt8) (buf0 : Buf) (f : Fuse) (r : Res (Thrown UInt8)) (x : Res (Mem UInt8 × Buf)) : Prop :=
  (∀ p, x = .ok p → p.1.heap.length = m.heap.length + a.toNat) ∧
    r = match ask a f with
      | none => .ok (m, buf0, none)
      | some f' => x.bind (fun p => .ok (p.1, p.2, some f'))

theorem setCells_length (m : Mem UInt8) (b : Nat) (c : List (Option UInt8)) : (m.setCells b c).heap.length = m.heap.length := by
  simp [Mem.setCells]

theorem blit_length {m m' : Mem UInt8} {buf : Buf} {off : Nat} {xs : List (Option UInt8)} (h : blit m buf off xs = .ok m') :
    m'.heap.length = m.heap.length := by
  unfold blit at h
  split at h
  · cases h; rfl
  · obtain ⟨b, _, h⟩ := Res.bind_eq_ok.1 h
    obtain ⟨c, _, h⟩ := Res.bind_eq_ok.1 h
    split at h
    · cases h; exact setCells_length ..
    · cases h

theorem poke_length {m m' : Mem UInt8} {buf : Buf} {i : Nat} {x : UInt8} (h : poke m buf i x = .ok m') :
    m'.heap.length = m.heap.length := by
  unfold poke at h
  obtain ⟨b, _, h⟩ := Res.bind_eq_ok.1 h
  obtain ⟨c, _, h⟩ := Res.bind_eq_ok.1 h
  split at h
  · cases h; exact setCells_length ..
  · cases h

theorem freeBuf_length {m m' : Mem UInt8} {buf : Buf} (h : freeBuf m buf = .ok m') : m'.heap.length = m.heap.length := by
  unfold freeBuf at h
  split at h
  · cases h; rfl
  · obtain ⟨c, _, h⟩ := Res.bind_eq_ok.1 h
    cases h
    simp

theorem newBuf_length (m : Mem UInt8) (n : Nat) :
    (newBuf 1 m n).1.heap.length = m.heap.length + (decide (n * 1 % 2 ^ 64 > 0)).toNat := by
  unfold newBuf
  split <;> simp_all

theorem newBufT_eq (m : Mem UInt8) (n : Nat) (f : Fuse) :
    newBufT 1 m n f = (ask (decide (n * 1 % 2 ^ 64 > 0)) f).map (fun f' => ((newBuf 1 m n).1, (newBuf 1 m n).2, f')) := by
  unfold newBufT ask
  by_cases h : n * 1 % 2 ^ 64 > 0
  · rw [if_pos h]
    simp only [h, decide_true, if_true]
  · rw [if_neg h]
    simp only [h, decide_false, Bool.false_eq_true, if_false, Option.map_some]

theorem reserve_once (m : Mem UInt8) (buf : Buf) (n : Nat) (f : Fuse) :
    Once (decide ((n + 1) % 2 ^ 64 > buf.cap)) m buf f (reserveT m buf n f) (reserve m buf n) := by
  unfold reserveT reserve
  by_cases h : (n + 1) % 2 ^ 64 > buf.cap
  · have h1 : decide ((n + 1) % 2 ^ 64 * 1 % 2 ^ 64 > 0) = true := by
      rw [Nat.mul_one, Nat.mod_mod]
      exact decide_eq_true (by omega)
    rw [if_pos h, if_pos h, newBufT_eq, h1]
    simp only [h, decide_true]
    refine ⟨?_, ?_⟩
    · intro p hp
      have hl := newBuf_length m ((n + 1) % 2 ^ 64)
      rw [h1] at hl
      obtain ⟨xs, _, hp⟩ := Res.bind_eq_ok.1 hp
      obtain ⟨m2, h2, hp⟩ := Res.bind_eq_ok.1 hp
      obtain ⟨m3, h3, hp⟩ := Res.bind_eq_ok.1 hp
      obtain ⟨m4, h4, hp⟩ := Res.bind_eq_ok.1 hp
      cases hp
      rw [freeBuf_length h4, poke_length h3, blit_length h2, hl]
    · cases ask true f with
      | none => rfl
      | some f' =>
        simp only [Option.map_some]
        cases hx : readSrc (newBuf 1 m ((n + 1) % 2 ^ 64)).1 (view buf 0 (length buf)) with
        | ub u => rfl
        | diverge => rfl
        | ok xs =>
          simp only [Res.bind_ok]
          cases blit (newBuf 1 m ((n + 1) % 2 ^ 64)).1 (newBuf 1 m ((n + 1) % 2 ^ 64)).2 0 xs with
          | ub u => rfl
          | diverge => rfl
          | ok m2 =>
            simp only [Res.bind_ok]
            cases poke m2 (newBuf 1 m ((n + 1) % 2 ^ 64)).2 (length buf) 0 with
            | ub u => rfl
            | diverge => rfl
            | ok m3 =>
              simp only [Res.bind_ok]
              cases freeBuf m3 buf <;> rfl
  · rw [if_neg h, if_neg h]
    simp only [h, decide_false]
    exact ⟨fun p hp => by cases hp; rfl, rfl⟩

theorem resize_once (m : Mem UInt8) (buf : Buf) (n : Nat) (f : Fuse) :
    Once (decide ((n + 1) % 2 ^ 64 > buf.cap)) m buf f (resizeT m buf n f) (resize m buf n) := by
  obtain ⟨hl, he⟩ := reserve_once m buf n f
  refine ⟨?_, ?_⟩
  · intro p hp
    unfold resize at hp
    obtain ⟨q, h1, hp⟩ := Res.bind_eq_ok.1 hp
    obtain ⟨m2, h2, hp⟩ := Res.bind_eq_ok.1 hp
    cases hp
    rw [poke_length h2]
    exact hl q h1
  · unfold resizeT resize
    rw [he]
    cases ask (decide ((n + 1) % 2 ^ 64 > buf.cap)) f with
    | none => rfl
    | some f' =>
      cases reserve m buf n with
      | ub u => rfl
      | diverge => rfl
      | ok q =>
        simp only [Res.bind, Bind.bind]
        cases poke q.1 { q.2 with size := (n + 1) % 2 ^ 64 } n 0 <;> rfl

theorem append_once (m : Mem UInt8) (buf : Buf) (src : Src) (f : Fuse) :
    Once (decide (((length buf + src.len) % 2 ^ 64 + 1) % 2 ^ 64 > buf.cap)) m buf f (appendT m buf src f) (append m buf src) := by
  obtain ⟨hl, he⟩ := resize_once m buf ((length buf + src.len) % 2 ^ 64) f
  refine ⟨?_, ?_⟩
  · intro p hp
    unfold append at hp
    obtain ⟨q, h1, hp⟩ := Res.bind_eq_ok.1 hp
    obtain ⟨xs, _, hp⟩ := Res.bind_eq_ok.1 hp
    obtain ⟨m2, h2, hp⟩ := Res.bind_eq_ok.1 hp
    cases hp
    rw [blit_length h2]
    exact hl q h1
  · unfold appendT append
    dsimp only
    rw [he]
    cases ask (decide (((length buf + src.len) % 2 ^ 64 + 1) % 2 ^ 64 > buf.cap)) f with
    | none => rfl
    | some f' =>
      cases resize m buf ((length buf + src.len) % 2 ^ 64) with
      | ub u => rfl
      | diverge => rfl
      | ok q =>
        simp only [Res.bind, Bind.bind]
        cases readSrc q.1 src with
        | ub u => rfl
        | diverge => rfl
        | ok xs =>
          simp only
          cases blit q.1 q.2 (length buf) xs <;> rfl

theorem ofSrc_once (m : Mem UInt8) (src : Src) (f : Fuse) :
    Once (decide ((src.len + 1) % 2 ^ 64 > 0)) m Buf.null f (ofSrcT m src f) (ofSrc m src) := by
  obtain ⟨hl, he⟩ := resize_once m Buf.null src.len f
  refine ⟨?_, ?_⟩
  · intro p hp
    unfold ofSrc at hp
    obtain ⟨q, h1, hp⟩ := Res.bind_eq_ok.1 hp
    obtain ⟨xs, _, hp⟩ := Res.bind_eq_ok.1 hp
    obtain ⟨m2, h2, hp⟩ := Res.bind_eq_ok.1 hp
    cases hp
    rw [blit_length h2]
    exact hl q h1
  · unfold ofSrcT ofSrc
    rw [he]
    show _ = match ask (decide ((src.len + 1) % 2 ^ 64 > Buf.null.cap)) f with | none => _ | some f' => _
    cases ask (decide ((src.len + 1) % 2 ^ 64 > Buf.null.cap)) f with
    | none => rfl
    | some f' =>
      cases resize m Buf.null src.len with
      | ub u => rfl
      | diverge => rfl
      | ok q =>
        simp only [Res.bind, Bind.bind]
        cases readSrc q.1 src with
        | ub u => rfl
        | diverge => rfl
        | ok xs =>
          simp only
          cases blit q.1 q.2 0 xs <;> rfl

theorem copyNew_once (m : Mem UInt8) (src : Buf) (f : Fuse) :
    Once (decide (src.cap * 1 % 2 ^ 64 > 0)) m Buf.null f (copyNewT m src f) (copyNew m src) := by
  refine ⟨?_, ?_⟩
  · intro p hp
    unfold copyNew at hp
    have hl := newBuf_length m src.cap
    generalize newBuf 1 m src.cap = q at hp hl
    obtain ⟨m1, new⟩ := q
    obtain ⟨xs, _, hp⟩ := Res.bind_eq_ok.1 hp
    obtain ⟨m2, h2, hp⟩ := Res.bind_eq_ok.1 hp
    cases hp
    rw [blit_length h2]
    exact hl
  · unfold copyNewT copyNew
    rw [newBufT_eq]
    cases ask (decide (src.cap * 1 % 2 ^ 64 > 0)) f with
    | none => rfl
    | some f' =>
      simp only [Option.map_some]
      cases readSrc (newBuf 1 m src.cap).1 (view src 0 src.size) with
      | ub u => rfl
      | diverge => rfl
      | ok xs =>
        simp only [Res.bind_ok]
        cases blit (newBuf 1 m src.cap).1 (newBuf 1 m src.cap).2 0 xs <;> rfl

/-! ## Statements -/

/-- The same for statements. -/
def StepOnce (a : Bool) (s : State) (f : Fuse) (r : Res (State × Bool)) (x : Res State) : Prop :=
  (∀ s', x = .ok s' → s'.mem.heap.length = s.mem.heap.length + a.toNat) ∧
    r = match ask a f with
      | none => .ok (s, true)
      | some _ => x.bind (fun s' => .ok (s', false))

theorem bindNew_once {s : State} {a : Bool} {f : Fuse} {r : Res (Thrown UInt8)} {x : Res (Mem UInt8 × Buf)}
    (h : Once a s.mem Buf.null f r x) :
    StepOnce a s f (r.bind (bindNew s.vars)) (x.bind (fun p => .ok ⟨p.1, s.vars ++ [some p.2]⟩)) := by
  obtain ⟨hl, he⟩ := h
  refine ⟨?_, ?_⟩
  · intro s' hs
    cases x with
    | ok p => cases hs; exact hl p rfl
    | ub u => cases hs
    | diverge => cases hs
  · rw [he]
    cases ask a f with
    | none => rfl
    | some f' => cases x <;> rfl

theorem set_getVar {vars : List (Option Buf)} {v : Nat} {buf : Buf} (h : Vec.getVar vars v = .ok buf) :
    vars.set v (some buf) = vars := by
  unfold Vec.getVar at h
  split at h
  · rename_i b hb
    cases h
    apply List.ext_getElem?
    intro i
    by_cases hi : v = i
    · subst hi
      rw [List.getElem?_set_self (List.getElem?_eq_some_iff.1 hb).1, hb]
    · rw [List.getElem?_set_ne hi]
  · cases h

theorem onVar_once {s : State} {v : Nat} {buf : Buf} (hv : Vec.getVar s.vars v = .ok buf) {a : Bool} {f : Fuse}
    {r : Mem UInt8 → Buf → Res (Thrown UInt8)} {x : Mem UInt8 → Buf → Res (Mem UInt8 × Buf)}
    (h : Once a s.mem buf f (r s.mem buf) (x s.mem buf)) : StepOnce a s f (onVarT s v r) (onVar s v x) := by
  obtain ⟨hl, he⟩ := h
  unfold onVarT onVar
  rw [hv]
  simp only [Res.bind_ok]
  refine ⟨?_, ?_⟩
  · intro s' hs
    obtain ⟨p, h1, hs⟩ := Res.bind_eq_ok.1 hs
    cases hs
    exact hl p h1
  · rw [he]
    cases ask a f with
    | none => simp only [Res.bind_ok, set_getVar hv, Option.isNone_none]
    | some f' => cases x s.mem buf <;> rfl

/-- A statement of `Str.Op` allocates at most once, and before it changes anything. -/
theorem step_once {s s1 : State} {op : Op} (h : step s op = .ok s1) (f : Fuse) :
    ∃ a, StepOnce a s f (stepBase s f op) (step s op) ∧ (noThrow (.base op) = true → a = false) := by
  have noAlloc : ∀ {x : Res State}, (∀ s', x = .ok s' → s'.mem.heap.length = s.mem.heap.length) →
      StepOnce false s f (x.bind (fun s' => .ok (s', false))) x := fun hl => ⟨hl, rfl⟩
  cases op with
  | ofBytes xs => exact ⟨_, bindNew_once (ofSrc_once s.mem (.ext xs) f), fun h => by cases h⟩
  | ofPart src off len =>
    simp only [step, stepBase] at h ⊢
    obtain ⟨sb, hb, _⟩ := Res.bind_eq_ok.1 h
    rw [hb]
    exact ⟨_, bindNew_once (ofSrc_once s.mem (view sb off len) f), fun h => by cases h⟩
  | copyNew src =>
    simp only [step, stepBase] at h ⊢
    obtain ⟨sb, hb, _⟩ := Res.bind_eq_ok.1 h
    rw [hb]
    exact ⟨_, bindNew_once (copyNew_once s.mem sb f), fun h => by cases h⟩
  | moveNew src =>
    refine ⟨false, noAlloc ?_, fun _ => rfl⟩
    intro s' hs
    simp only [step] at hs
    obtain ⟨sb, hb, hs⟩ := Res.bind_eq_ok.1 hs
    cases hs
    rfl
  | copyAssign dst src =>
    simp only [step, stepBase] at h ⊢
    obtain ⟨sb, hb, h⟩ := Res.bind_eq_ok.1 h
    rw [hb]
    obtain ⟨p, hc, h⟩ := Res.bind_eq_ok.1 h
    obtain ⟨db, hd, h⟩ := Res.bind_eq_ok.1 h
    obtain ⟨m', hm, h⟩ := Res.bind_eq_ok.1 h
    obtain ⟨hl, he⟩ := copyNew_once s.mem sb f
    refine ⟨decide (sb.cap * 1 % 2 ^ 64 > 0), ⟨?_, ?_⟩, fun h => by cases h⟩
    · intro s' hs
      simp only [Res.bind_ok, hc, hd, hm] at hs
      cases hs
      rw [freeBuf_length hm]
      exact hl p hc
    · simp only [Res.bind_ok]
      rw [he]
      cases ask (decide (sb.cap * 1 % 2 ^ 64 > 0)) f with
      | none => rfl
      | some f' => simp only [hc, Res.bind, Bind.bind, hd, hm]
  | moveAssign dst src =>
    refine ⟨false, noAlloc ?_, fun _ => rfl⟩
    intro s' hs
    simp only [step] at hs
    obtain ⟨sb, hb, hs⟩ := Res.bind_eq_ok.1 hs
    obtain ⟨db, hd, hs⟩ := Res.bind_eq_ok.1 hs
    cases hs
    rfl
  | reserve v n =>
    obtain ⟨buf, hb, _⟩ := Res.bind_eq_ok.1 h
    exact ⟨_, onVar_once hb (r := fun m b => reserveT m b n f) (x := fun m b => reserve m b n) (reserve_once s.mem buf n f),
      fun h => by cases h⟩
  | resize v n =>
    obtain ⟨buf, hb, _⟩ := Res.bind_eq_ok.1 h
    exact ⟨_, onVar_once hb (r := fun m b => resizeT m b n f) (x := fun m b => resize m b n) (resize_once s.mem buf n f),
      fun h => by cases h⟩
  | append v xs =>
    obtain ⟨buf, hb, _⟩ := Res.bind_eq_ok.1 h
    exact ⟨_, onVar_once hb (r := fun m b => appendT m b (.ext xs) f) (x := fun m b => append m b (.ext xs))
      (append_once s.mem buf (.ext xs) f), fun h => by cases h⟩
  | appendPart v src off len =>
    simp only [step, stepBase] at h ⊢
    obtain ⟨sb, hs, h⟩ := Res.bind_eq_ok.1 h
    obtain ⟨buf, hb, _⟩ := Res.bind_eq_ok.1 h
    rw [hs]
    simp only [Res.bind_ok]
    exact ⟨_, onVar_once hb (r := fun m b => appendT m b (view sb off len) f) (x := fun m b => append m b (view sb off len))
      (append_once s.mem buf (view sb off len) f), fun h => by cases h⟩
  | write v i x =>
    refine ⟨false, noAlloc ?_, fun _ => rfl⟩
    intro s' hs
    simp only [step, onVar] at hs
    obtain ⟨sb, hb, hs⟩ := Res.bind_eq_ok.1 hs
    obtain ⟨p, hp, hs⟩ := Res.bind_eq_ok.1 hs
    obtain ⟨m', hm, hp⟩ := Res.bind_eq_ok.1 hp
    cases hp
    cases hs
    exact poke_length hm
  | destroy v =>
    refine ⟨false, noAlloc ?_, fun _ => rfl⟩
    intro s' hs
    simp only [step] at hs
    obtain ⟨sb, hb, hs⟩ := Res.bind_eq_ok.1 hs
    obtain ⟨m', hm, hs⟩ := Res.bind_eq_ok.1 hs
    cases hs
    exact freeBuf_length hm

theorem ask_none {a : Bool} {f : Fuse} (h : ask a f = none) : f ≠ none ∧ a = true := by
  cases a <;> cases f <;> simp_all [ask, tick]

/-! ## `operator+` -/

theorem dropLast {m : Mem UInt8} {vs : List (Option Buf)} {e : Texts} {buf : Buf} {l : Text}
    (h : SInv ⟨m, vs ++ [some buf]⟩ (e ++ [some l])) : ∃ m', freeBuf m buf = .ok m' ∧ SInv ⟨m', vs⟩ e := by
  have hl : vs.length = e.length := by simpa using h.len
  obtain ⟨m', h1, h2⟩ := h.destroyVar (v := vs.length) (buf := buf) (l := l) (by simp) (by rw [hl]; simp)
  refine ⟨m', h1, ?_⟩
  have e1 : (vs ++ [some buf]).set vs.length none = vs ++ [none] := by
    rw [List.set_append_right _ _ (Nat.le_refl _)]
    simp
  have e2 : (e ++ [some l]).set vs.length none = e ++ [none] := by
    rw [hl, List.set_append_right _ _ (Nat.le_refl _)]
    simp
  simp only [e1, e2] at h2
  exact h2.pop

theorem textOf_append_lt {e : Texts} {v : Nat} {l : Text} (h : textOf e v = some l) (x : Option Text) :
    textOf (e ++ [x]) v = some l := by
  unfold textOf at h ⊢
  cases hv : e[v]? with
  | none => rw [hv] at h; cases h
  | some o =>
    rw [List.getElem?_append_left (List.getElem?_eq_some_iff.1 hv).1, hv]
    rw [hv] at h
    exact h

theorem textOf_last (e : Texts) (l : Text) : textOf (e ++ [some l]) e.length = some l := by
  simp [textOf]

theorem getVar_append_lt {vs : List (Option Buf)} {v : Nat} {b : Buf} (h : Vec.getVar vs v = .ok b) (x : Option Buf) :
    Vec.getVar (vs ++ [x]) v = .ok b := by
  unfold Vec.getVar at h ⊢
  cases hv : vs[v]? with
  | none => rw [hv] at h; cases h
  | some o =>
    rw [List.getElem?_append_left (List.getElem?_eq_some_iff.1 hv).1, hv]
    rw [hv] at h
    exact h

theorem getVar_last (vs : List (Option Buf)) (b : Buf) : Vec.getVar (vs ++ [some b]) vs.length = .ok b := by
  simp [Vec.getVar]

theorem set_last {α : Type} (vs : List α) (x y : α) : (vs ++ [x]).set vs.length y = vs ++ [y] := by
  rw [List.set_append_right _ _ (Nat.le_refl _)]
  simp

/-- Appending the right operand to the parameter. -/
theorem appendRhs {m : Mem UInt8} {vs : List (Option Buf)} {e : Texts} {lhs : Buf} {l r : Text} {rhs : Rhs}
    (h : SInv ⟨m, vs ++ [some lhs]⟩ (e ++ [some l])) (hr : rhsText e rhs = some r) (hf : l.length + r.length + 1 < 2 ^ 64) :
    ∃ src p, rhsSrc vs rhs = .ok src ∧ append m lhs src = .ok p ∧ SInv ⟨p.1, vs ++ [some p.2]⟩ (e ++ [some (l ++ r)]) := by
  have hl : vs.length = e.length := by simpa using h.len
  have htl : textOf (e ++ [some l]) vs.length = some l := by rw [hl]; exact textOf_last e l
  cases rhs with
  | bytes xs =>
    simp only [rhsText, Option.some.injEq] at hr
    subst hr
    have hstep : textStep (e ++ [some l]) (.append vs.length xs) = some (e ++ [some (l ++ xs.map some)]) := by
      simp only [textStep, htl, Option.map_some]
      rw [hl, set_last]
    obtain ⟨s', h1, h2, _⟩ := step_spec h (op := .append vs.length xs)
      (by intro l' hl'; rw [htl] at hl'; cases hl'; simpa using hf) trivial hstep
    simp only [step, onVar, getVar_last, Res.bind_ok] at h1
    obtain ⟨p, hp, h1⟩ := Res.bind_eq_ok.1 h1
    cases h1
    refine ⟨.ext xs, p, rfl, hp, ?_⟩
    simpa only [set_last] using h2
  | var v =>
    have hv : textOf e v = some r := hr
    have hlt : v < vs.length := by
      unfold textOf at hv
      cases hx : e[v]? with
      | none => rw [hx] at hv; cases hv
      | some o => rw [hl]; exact (List.getElem?_eq_some_iff.1 hx).1
    have hv' := textOf_append_lt hv (some l)
    obtain ⟨sb, g1, g2, _, g4⟩ := h.getVar hv'
    have g1' : Vec.getVar vs v = .ok sb := by
      unfold Vec.getVar at g1 ⊢
      rw [List.getElem?_append_left hlt] at g1
      exact g1
    have hlen := g4.length
    have hstep : textStep (e ++ [some l]) (.appendPart vs.length v 0 (length sb)) = some (e ++ [some (l ++ r)]) := by
      simp only [textStep, hv', htl, Option.bind_some, Option.map_some, part, hlen, Nat.zero_add, Nat.le_refl, if_true,
        List.drop_zero, List.take_length]
      rw [hl, set_last]
    obtain ⟨s', h1, h2, _⟩ := step_spec h (op := .appendPart vs.length v 0 (length sb))
      (by intro l' hl'; rw [htl] at hl'; cases hl'; rw [hlen]; exact hf) (by intro hx; omega) hstep
    simp only [step, onVar, getVar_last, Res.bind_ok, g1] at h1
    obtain ⟨p, hp, h1⟩ := Res.bind_eq_ok.1 h1
    cases h1
    refine ⟨view sb 0 (length sb), p, by simp only [rhsSrc, g1', Res.bind_ok], hp, ?_⟩
    simpa only [set_last] using h2

theorem copyLast {m : Mem UInt8} {vs : List (Option Buf)} {e : Texts} {buf : Buf} {l : Text}
    (h : SInv ⟨m, vs ++ [some buf]⟩ (e ++ [some l])) :
    ∃ q, copyNew m buf = .ok q ∧ SInv ⟨q.1, vs ++ [some buf] ++ [some q.2]⟩ (e ++ [some l] ++ [some l]) := by
  have hl : vs.length = e.length := by simpa using h.len
  have htl : textOf (e ++ [some l]) vs.length = some l := by rw [hl]; exact textOf_last e l
  obtain ⟨s', h1, h2, _⟩ := step_spec h (op := .copyNew vs.length) trivial trivial
    (show textStep (e ++ [some l]) (.copyNew vs.length) = some (e ++ [some l] ++ [some l]) by
      simp only [textStep, htl, Option.map_some])
  simp only [step, getVar_last, Res.bind_ok] at h1
  obtain ⟨q, hq, h1⟩ := Res.bind_eq_ok.1 h1
  cases h1
  exact ⟨q, hq, h2⟩

theorem swapLast {m : Mem UInt8} {vs : List (Option Buf)} {e : Texts} {b c : Buf} {k l : Text}
    (h : SInv ⟨m, vs ++ [some b] ++ [some c]⟩ (e ++ [some k] ++ [some l])) :
    SInv ⟨m, vs ++ [some c] ++ [some b]⟩ (e ++ [some l] ++ [some k]) := by
  have hl : vs.length = e.length := by simpa using h.len
  have h1 := h.swap (x := vs.length) (y := vs.length + 1) (bx := b) (bY := c) (lx := k) (ly := l)
    (by simp) (by simp) (by rw [hl]; simp) (by rw [hl]; simp)
  have e1 : ((vs ++ [some b] ++ [some c]).set vs.length (some c)).set (vs.length + 1) (some b) = vs ++ [some c] ++ [some b] := by
    simp
  have e2 : ((e ++ [some k] ++ [some l]).set vs.length (some l)).set (vs.length + 1) (some k) = e ++ [some l] ++ [some k] := by
    rw [hl]
    simp
  simp only at h1
  rw [e1, e2] at h1
  exact h1

theorem plusBody_spec {m : Mem UInt8} {vs : List (Option Buf)} {e : Texts} {lhs : Buf} {l r : Text} {rhs : Rhs}
    (h : SInv ⟨m, vs ++ [some lhs]⟩ (e ++ [some l])) (hr : rhsText e rhs = some r) (hf : l.length + r.length + 1 < 2 ^ 64)
    (f : Fuse) :
    ∃ s' t, plusBody m vs lhs rhs f = .ok (s', t) ∧ (t = false → SInv s' (e ++ [some (l ++ r)])) ∧
      (t = true → SInv s' e ∧ f ≠ none) := by
  obtain ⟨src, p, h1, h2, h3⟩ := appendRhs h hr hf
  obtain ⟨q, h4, h5⟩ := copyLast h3
  unfold plusBody
  simp only [h1, Res.bind_ok]
  rw [(append_once m lhs src f).2]
  cases ha : ask (decide (((length lhs + src.len) % 2 ^ 64 + 1) % 2 ^ 64 > lhs.cap)) f with
  | none =>
    obtain ⟨m', k1, k2⟩ := dropLast h
    simp only [Res.bind_ok, k1]
    exact ⟨_, _, rfl, (fun h => by cases h), fun _ => ⟨k2, (ask_none ha).1⟩⟩
  | some f1 =>
    simp only [h2, Res.bind, Bind.bind]
    rw [(copyNew_once p.1 p.2 f1).2]
    cases hb : ask (decide (p.2.cap * 1 % 2 ^ 64 > 0)) f1 with
    | none =>
      obtain ⟨m', k1, k2⟩ := dropLast h3
      simp only [k1]
      refine ⟨_, _, rfl, (fun h => by cases h), fun _ => ⟨k2, fun hf => ?_⟩⟩
      subst hf
      have : f1 = none := by
        unfold ask at ha
        split at ha <;> simp_all [tick]
      exact (ask_none hb).1 this
    | some f2 =>
      obtain ⟨m', k1, k2⟩ := dropLast (swapLast h5)
      simp only [h4, Res.bind, k1]
      exact ⟨_, _, rfl, fun _ => k2, fun h => by cases h⟩

/-! ## Programs -/

/-- How a statement went. -/
structure Went (s' : State) (e e' : Texts) (op : TOp) (f : Fuse) (t : Bool) : Prop where
  done : t = false → SInv s' e'
  threw : t = true → SInv s' (leftByThrow e op) ∧ noThrow op = false ∧ f ≠ none

theorem stepT_spec {s : State} {e e' : Texts} (h : SInv s e) {op : TOp} (hf : TryFits e op) (hn : ¬ TrySelf op)
    (hs : tryStep e op = some e') (f : Fuse) : ∃ s' t, stepT s f op = .ok (s', t) ∧ Went s' e e' op f t := by
  cases op with
  | base op =>
    obtain ⟨s1, h1, h2, _⟩ := step_spec h (op := op) hf (Room.of_not_self hn) hs
    obtain ⟨a, ⟨_, h3⟩, h4⟩ := step_once h1 f
    show ∃ s' t, stepBase s f op = .ok (s', t) ∧ _
    rw [h3]
    cases ha : ask a f with
    | none =>
      refine ⟨_, _, rfl, (fun h => by cases h), fun _ => ⟨h, ?_, (ask_none ha).1⟩⟩
      cases hq : noThrow (.base op) with
      | false => rfl
      | true =>
        have := h4 hq
        rw [this] at ha
        cases ha
    | some f' =>
      simp only [h1, Res.bind]
      exact ⟨_, _, rfl, fun _ => h2, fun h => by cases h⟩
  | plus a moved rhs =>
    simp only [tryStep] at hs
    cases hl : textOf e a with
    | none => rw [hl] at hs; cases hs
    | some l =>
      rw [hl] at hs
      simp only [Option.bind_some] at hs
      obtain ⟨ab, g1, g2, g3, g4⟩ := h.getVar hl
      simp only [stepT, g1, Res.bind_ok]
      cases moved with
      | true =>
        simp only [if_true] at hs ⊢
        cases hr : rhsText (e.set a (some [])) rhs with
        | none => rw [hr] at hs; cases hs
        | some r =>
          rw [hr] at hs
          simp only [Option.map_some, Option.some.injEq] at hs
          subst hs
          obtain ⟨s1, k1, k2, _⟩ := step_spec h (op := .moveNew a) trivial trivial
            (show textStep e (.moveNew a) = some (e.set a (some []) ++ [some l]) by simp only [textStep, hl, Option.map_some])
          simp only [step, g1, Res.bind_ok, Res.ok.injEq] at k1
          subst k1
          obtain ⟨s', t, b1, b2, b3⟩ := plusBody_spec k2 hr (hf l r hl hr) f
          exact ⟨s', t, b1, b2, fun ht => ⟨(b3 ht).1, rfl, (b3 ht).2⟩⟩
      | false =>
        simp only [Bool.false_eq_true, if_false] at hs ⊢
        cases hr : rhsText e rhs with
        | none => rw [hr] at hs; cases hs
        | some r =>
          rw [hr] at hs
          simp only [Option.map_some, Option.some.injEq] at hs
          subst hs
          obtain ⟨s1, k1, k2, _⟩ := step_spec h (op := .copyNew a) trivial trivial
            (show textStep e (.copyNew a) = some (e ++ [some l]) by simp only [textStep, hl, Option.map_some])
          simp only [step, g1, Res.bind_ok] at k1
          obtain ⟨p, hp, k1⟩ := Res.bind_eq_ok.1 k1
          cases k1
          rw [(copyNew_once s.mem ab f).2]
          cases ha : ask (decide (ab.cap * 1 % 2 ^ 64 > 0)) f with
          | none => exact ⟨_, _, rfl, (fun h => by cases h), fun _ => ⟨h, rfl, (ask_none ha).1⟩⟩
          | some f1 =>
            simp only [hp, Res.bind, Bind.bind]
            obtain ⟨s', t, b1, b2, b3⟩ := plusBody_spec k2 hr (hf l r hl hr) f1
            refine ⟨s', t, b1, b2, fun ht => ⟨(b3 ht).1, rfl, fun hf => ?_⟩⟩
            subst hf
            have : f1 = none := by
              unfold ask at ha
              split at ha <;> simp_all [tick]
            exact (b3 ht).2 this

theorem runT_spec {s : State} {e : Texts} (h : SInv s e) {prog : TryStrs} (hl : LegalStrs e prog) :
    ∃ s' e', runT s prog = .ok s' ∧ StrCourse e prog e' ∧ SInv s' e' := by
  induction prog generalizing s e with
  | stop => exact ⟨s, e, rfl, .stop, h⟩
  | stmt op f next ih =>
    obtain ⟨h1, h2, h3, h4, h5⟩ := hl
    cases hs : tryStep e op with
    | none => exact absurd hs h3
    | some e1 =>
      obtain ⟨s1, t, g1, g2⟩ := stepT_spec h h1 h2 hs f
      cases t with
      | false =>
        obtain ⟨s2, e2, k1, k2, k3⟩ := ih false (g2.done rfl) (h4 e1 hs)
        exact ⟨s2, e2, by simp only [runT, g1, Res.bind_ok, k1], .done hs k2, k3⟩
      | true =>
        obtain ⟨a1, a2, a3⟩ := g2.threw rfl
        obtain ⟨s2, e2, k1, k2, k3⟩ := ih true a1 (h5 a2 a3)
        exact ⟨s2, e2, by simp only [runT, g1, Res.bind_ok, k1], .threw a2 a3 k2, k3⟩

end Str
end Coil
