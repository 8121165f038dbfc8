import Verif.Proofs.StringThrow
import Verif.Props.String

/-!
# Properties of strings when memory runs out (C92)

A program is a tree of statements on any number of strings (`Str.TryStrs`): each statement comes with the number of
allocations that succeed in it, and the program goes on depending on whether it threw. What it should do is
`Spec.StrCourse`: a statement that throws changes nothing, except that `std::move(a) + b` has lost the text of `a`.
-/

namespace Coil
open Spec Mem

/-- Every live heap block belongs to exactly one live string. -/
def Str.NoLeak (s : Str.State) : Prop :=
  ∀ (b : Nat) c, s.mem.heap[b]? = some (some c) →
    ∃ v buf, (Vec.getVar s.vars v = .ok buf ∧ buf.ptr = some b) ∧
      ∀ w buf', Vec.getVar s.vars w = .ok buf' → buf'.ptr = some b → w = v

theorem Str.SInv.noLeak {s : Str.State} {e : Texts} (h : Str.SInv s e) : Str.NoLeak s := by
  intro b c hc
  obtain ⟨v, buf, hv, hp⟩ := h.live b c hc
  refine ⟨v, buf, ⟨by simp [Vec.getVar, hv], hp⟩, fun w buf' hw hp' => ?_⟩
  exact h.dist w v buf' buf b (Str.getVar_mem hw) hv hp' hp

/-- **C92 (strong guarantee).** Whatever allocations fail in a program and however the program goes on, it runs without undefined
behaviour; statements that throw leave every string with its text (`std::move(a) + b` empties `a`), the others do what they
should; and no block is leaked or shared. Missing, as in C22: appending a string to itself with `+=`, which is undefined
also when nothing fails (C23). -/
theorem C92_strings_partial {prog : Str.TryStrs} (hl : LegalStrs [] prog) :
    ∃ s e, Str.runT ⟨Mem.empty, []⟩ prog = .ok s ∧ StrCourse [] prog e ∧ Str.ShowsAll s e ∧ Str.NoLeak s := by
  obtain ⟨s, e, h1, h2, h3⟩ := Str.runT_spec Str.SInv.init hl
  exact ⟨s, e, h1, h2, h3.shows, h3.noLeak⟩

/-- A program for the examples: `s` is made, then grown with no memory left, then, since that threw, shortened; then
`s + s` fails in its last allocation, and at last succeeds. -/
def demoStrTry : Str.TryStrs :=
  .stmt (.base (.ofBytes (lit "abc"))) none fun _ =>
  .stmt (.base (.append 0 (lit "defg"))) (some 0) fun threw =>
  if threw then
    .stmt (.base (.resize 0 2)) (some 0) fun _ =>
    .stmt (.plus 0 false (.var 0)) (some 2) fun threw =>
    if threw then .stmt (.plus 0 false (.var 0)) (some 3) fun _ => .stop
    else .stop
  else .stop

/-- The hypothesis of `C92_strings_partial` holds of it. -/
example : LegalStrs [] demoStrTry := by
  refine ⟨(by decide : 3 + 1 < 2 ^ 64), id, by decide, ?_, fun _ h => absurd rfl h⟩
  intro e1 h1
  obtain rfl : [some [some 97, some 98, some 99]] = e1 := by
    have : tryStep [] (.base (.ofBytes (lit "abc"))) = some [some [some 97, some 98, some 99]] := by decide +kernel
    exact Option.some.inj (this.symm.trans h1)
  refine ⟨?_, id, by decide +kernel, fun _ _ => trivial, fun _ _ => ?_⟩
  · intro l hl
    cases hl
    decide +kernel
  refine ⟨(by decide : 2 + 1 < 2 ^ 64), id, by decide, ?_, ?_⟩
  · intro e2 h2
    obtain rfl : [some [some 97, some 98]] = e2 := by
      have : tryStep [some [some 97, some 98, some 99]] (.base (.resize 0 2)) = some [some [some 97, some 98]] := by decide +kernel
      exact Option.some.inj (this.symm.trans h2)
    refine ⟨?_, id, by decide +kernel, fun _ _ => trivial, fun _ _ => ⟨?_, id, by decide +kernel, fun _ _ => trivial, fun _ _ => trivial⟩⟩
    all_goals
      intro l r hl hr
      cases hl
      cases hr
      decide +kernel
  · intro _ _
    refine ⟨?_, id, by decide +kernel, fun _ _ => trivial, fun _ _ => ⟨?_, id, by decide +kernel, fun _ _ => trivial, fun _ _ => trivial⟩⟩
    all_goals
      intro l r hl hr
      cases hl
      cases hr
      decide +kernel

example : (Str.runT ⟨Mem.empty, []⟩ demoStrTry).bind (fun s => do
      let a ← Vec.getVar s.vars 0
      let b ← Vec.getVar s.vars 1
      .ok (← Str.text s.mem a, ← Str.text s.mem b, s.vars.length, s.mem.heap.map Option.isSome)) =
    .ok ([some 97, some 98], [some 97, some 98, some 97, some 98], 2, [true, false, false, false, false, true]) := by
  decide +kernel

/-- **C92 (nothing at all is changed).** A statement other than `+` that throws leaves the whole state as it was: the same buffers with the
same capacity and the same bytes, also the unspecified ones. This holds in every state, for every statement. -/
theorem C92_unchanged {s s' : Str.State} {f : Vec.Fuse} {op : Str.Op} (h : Str.stepT s f (.base op) = .ok (s', true)) :
    s' = s := by
  have key : ∀ {a : Bool} {r : Res (Str.State × Bool)} {x : Res Str.State}, Str.StepOnce a s f r x → r = .ok (s', true) → s' = s := by
    intro a r x h1 h2
    rw [h1.2] at h2
    cases ha : Str.ask a f with
    | none => rw [ha] at h2; cases h2; rfl
    | some f' =>
      rw [ha] at h2
      cases x <;> cases h2
  have plain : ∀ {x : Res Str.State}, (x.bind (fun s' => .ok (s', false)) : Res (Str.State × Bool)) = .ok (s', true) → s' = s := by
    intro x hx
    cases x <;> cases hx
  change Str.stepBase s f op = .ok (s', true) at h
  cases op with
  | ofBytes xs => exact key (Str.bindNew_once (Str.ofSrc_once s.mem (.ext xs) f)) h
  | ofPart src off len =>
    obtain ⟨sb, hb, h⟩ := Res.bind_eq_ok.1 h
    exact key (Str.bindNew_once (Str.ofSrc_once s.mem (Str.view sb off len) f)) h
  | copyNew src =>
    obtain ⟨sb, hb, h⟩ := Res.bind_eq_ok.1 h
    exact key (Str.bindNew_once (Str.copyNew_once s.mem sb f)) h
  | moveNew src => exact plain h
  | copyAssign dst src =>
    obtain ⟨sb, hb, h⟩ := Res.bind_eq_ok.1 h
    rw [(Str.copyNew_once s.mem sb f).2] at h
    cases ha : Str.ask (decide (sb.cap * 1 % 2 ^ 64 > 0)) f with
    | none => rw [ha] at h; cases h; rfl
    | some f' =>
      rw [ha] at h
      obtain ⟨⟨m, tmp, r⟩, hp, h⟩ := Res.bind_eq_ok.1 h
      cases hc : Str.copyNew s.mem sb with
      | ub u => rw [hc] at hp; cases hp
      | diverge => rw [hc] at hp; cases hp
      | ok q =>
        rw [hc] at hp
        cases hp
        obtain ⟨db, hd, h⟩ := Res.bind_eq_ok.1 h
        obtain ⟨m', hm, h⟩ := Res.bind_eq_ok.1 h
        cases h
  | moveAssign dst src => exact plain h
  | reserve v n =>
    obtain ⟨buf, hb, _⟩ := Res.bind_eq_ok.1 h
    exact key (Str.onVar_once hb (r := fun m b => Str.reserveT m b n f) (x := fun m b => Str.reserve m b n)
      (Str.reserve_once s.mem buf n f)) h
  | resize v n =>
    obtain ⟨buf, hb, _⟩ := Res.bind_eq_ok.1 h
    exact key (Str.onVar_once hb (r := fun m b => Str.resizeT m b n f) (x := fun m b => Str.resize m b n)
      (Str.resize_once s.mem buf n f)) h
  | append v xs =>
    obtain ⟨buf, hb, _⟩ := Res.bind_eq_ok.1 h
    exact key (Str.onVar_once hb (r := fun m b => Str.appendT m b (.ext xs) f) (x := fun m b => Str.append m b (.ext xs))
      (Str.append_once s.mem buf (.ext xs) f)) h
  | appendPart v src off len =>
    obtain ⟨sb, hs, h⟩ := Res.bind_eq_ok.1 h
    obtain ⟨buf, hb, _⟩ := Res.bind_eq_ok.1 h
    exact key (Str.onVar_once hb (r := fun m b => Str.appendT m b (Str.view sb off len) f)
      (x := fun m b => Str.append m b (Str.view sb off len)) (Str.append_once s.mem buf (Str.view sb off len) f)) h
  | write v i x => exact plain h
  | destroy v => exact plain h

example : (Str.run ⟨Mem.empty, []⟩ [.ofBytes (lit "abc"), .resize 0 1]).bind (fun s => Str.stepT s (some 0) (.base (.reserve 0 9))) =
    (Str.run ⟨Mem.empty, []⟩ [.ofBytes (lit "abc"), .resize 0 1]).bind (fun s => .ok (s, true)) ∧
    (Str.run ⟨Mem.empty, []⟩ [.ofBytes (lit "abc"), .resize 0 1]).IsOk := by
  decide +kernel

/-- **C92 (when it throws).** A statement other than `+` that is defined when nothing fails allocates at most one block. It throws exactly
if it would have allocated and no allocation succeeds; in all other cases it does what it does when nothing fails. -/
theorem C92_exact {s s1 : Str.State} {op : Str.Op} (h : Str.step s op = .ok s1) (f : Vec.Fuse) :
    s1.mem.heap.length ≤ s.mem.heap.length + 1 ∧
    Str.stepT s f (.base op) =
      if f = some 0 ∧ s.mem.heap.length < s1.mem.heap.length then .ok (s, true) else .ok (s1, false) := by
  obtain ⟨a, ⟨h1, h2⟩, _⟩ := Str.step_once h f
  have hl := h1 s1 h
  refine ⟨by cases a <;> simp at hl <;> omega, ?_⟩
  show Str.stepBase s f op = _
  rw [h2, h]
  cases a with
  | false =>
    simp only [Bool.toNat_false, Nat.add_zero] at hl
    rw [if_neg (by omega)]
    rfl
  | true =>
    simp only [Bool.toNat_true] at hl
    cases f with
    | none => rw [if_neg (by simp)]; rfl
    | some k =>
      cases k with
      | zero => rw [if_pos ⟨rfl, by omega⟩]; rfl
      | succ k => rw [if_neg (by simp)]; rfl

/-- Growing beyond the capacity allocates; shortening and growing within it do not. -/
example : ((Str.run ⟨Mem.empty, []⟩ [.ofBytes (lit "abc")]).bind (fun s => do
      let (_, t1) ← Str.stepT s (some 0) (.base (.append 0 (lit "d")))
      let (s2, t2) ← Str.stepT s (some 0) (.base (.resize 0 1))
      let (_, t3) ← Str.stepT s2 (some 0) (.base (.append 0 (lit "de")))
      .ok (t1, t2, t3))) = .ok (true, false, false) := by
  decide +kernel

/-- **C92 (disagreement).** `std::move(a) + b` is not all or nothing: if the memory for the sum is missing, the text of `a` is gone. And
`std::move(a) + a` does not double the text, since the right operand is read after the move. -/
theorem C92_moved_false :
    ((Str.run ⟨Mem.empty, []⟩ [.ofBytes (lit "abc"), .ofBytes (lit "de")]).bind (fun s => do
      let (s1, threw) ← Str.stepT s (some 0) (.plus 0 true (.var 1))
      let a ← Vec.getVar s1.vars 0
      .ok (threw, ← Str.text s1.mem a, s1.mem.heap.map Option.isSome))) = .ok (true, [], [false, true]) ∧
    ((Str.run ⟨Mem.empty, []⟩ [.ofBytes (lit "abc")]).bind (fun s => do
      let (s1, threw) ← Str.stepT s none (.plus 0 true (.var 0))
      let r ← Vec.getVar s1.vars 1
      .ok (threw, ← Str.text s1.mem r))) = .ok (false, [some 97, some 98, some 99]) := by
  refine ⟨?_, ?_⟩ <;> decide +kernel

/-- **C92 (moves never throw).** Moving a string, writing a byte of it and its end need no memory. -/
theorem C92_no_throw {s s' : Str.State} {op : Str.TOp} (hn : noThrow op = true) {f : Vec.Fuse} {t : Bool}
    (h : Str.stepT s f op = .ok (s', t)) : t = false ∧ s'.mem.heap.length = s.mem.heap.length := by
  have key : ∀ {op : Str.Op}, noThrow (.base op) = true → Str.stepBase s f op = (Str.step s op).bind (fun s' => .ok (s', false)) →
      Str.stepT s f (.base op) = .ok (s', t) → t = false ∧ s'.mem.heap.length = s.mem.heap.length := by
    intro op hn he h
    change Str.stepBase s f op = _ at h
    rw [he] at h
    cases hs : Str.step s op with
    | ub u => rw [hs] at h; cases h
    | diverge => rw [hs] at h; cases h
    | ok s1 =>
      rw [hs] at h
      cases h
      obtain ⟨a, ⟨h1, _⟩, h2⟩ := Str.step_once hs f
      have := h1 _ hs
      rw [h2 hn] at this
      exact ⟨rfl, this⟩
  cases op with
  | plus a moved rhs => cases hn
  | base op =>
    cases op with
    | moveNew src => exact key hn rfl h
    | moveAssign dst src => exact key hn rfl h
    | write v i x => exact key hn rfl h
    | destroy v => exact key hn rfl h
    | _ => cases hn

example : ((Str.run ⟨Mem.empty, []⟩ [.ofBytes (lit "abc"), .ofBytes (lit "x")]).bind (fun s => do
      let (s1, t) ← Str.stepT s (some 0) (.base (.moveAssign 0 1))
      let a ← Vec.getVar s1.vars 0
      .ok (t, ← Str.text s1.mem a))) = .ok (false, [some 120]) := by
  decide +kernel

end Coil
