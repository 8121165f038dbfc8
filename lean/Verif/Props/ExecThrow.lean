import Verif.Proofs.ExecThrowBack
import Verif.Proofs.ExecThrowMap
import Verif.Proofs.ExecThrowPlenty
import Verif.Props.Independent
import Verif.Props.Semantics

/-!
# Executing commands when memory runs out (C94)

`Spec/ExecThrow.lean` says what may happen when an allocation fails anywhere in the library. These theorems say that the library does
that and nothing else, on its hash map with vectors on the heap, for every way in which memory may run out.
-/

namespace Coil
open Spec Oom

variable {S W C D : Type} {P : C → TDef W C D} {T : TOps S C D} {catching : Bool} {cfg : LexCfg} {w : W} {main : TMain W C D}
  {outs : List (Option ExecOut)} {σ : Scene W C D} {c : HMap.Cfg Bytes (Command C D)}

theorem Oom.SeenAs.shows {Safe : List (RegEvent C D) → Prop} {I : List (RegEvent C D) → S → Prop} (m : ImplementsT Safe T I)
    {s : Sys S W C D} (p : SeenAs I s σ) (hs : Safe s.history) : Shows T.ops s σ := by
  have hf := p.find m hs
  obtain ⟨b, hb⟩ := p.pic
  exact ⟨hb.user, hf, hb.made, hb.changes, hb.freed⟩

/-- The assumptions on the map type: objects have a size, one entry never exceeds the load factor. -/
structure FitMap (c : HMap.Cfg Bytes (Command C D)) : Prop where
  nodeSize : 0 < c.nodeSize
  indexSize : 0 < c.indexSize
  load : ∀ b, 0 < b → c.exceeds 1 b = false
  small : c.indexSize < 2 ^ 64

/-- The changes of the commands that the map handles: with the repaired `erase` all, otherwise those of C24, and the sizes are
representable. The theorems with the suffix `_partial` have this assumption; missing are other removals on the code as it is
(`C94_as_is_false`). -/
structure FitChanges (c : HMap.Cfg Bytes (Command C D)) (h : List (RegEvent C D)) : Prop where
  removals : c.fixed = true ∨ SafeHistory h
  nodes : 3 * (h.length + 1) * c.nodeSize < 2 ^ 64
  buckets : h.length * 2 * c.indexSize < 2 ^ 64

/-- **C94 (sound).** However memory runs out, a program that ends went one of the ways the semantics allows: each action gave what the
semantics says, an action that threw left the commands and the state as they were, and no node, no block and no function object is
leaked or destroyed twice. -/
theorem C94_sound_partial (hp : Proper cfg) (hc : FitMap c) {fuel : Nat} {supply : Nat → Bool}
    {s : TSys (HMap.HState Bytes (Command C D)) W C D}
    (h : observedT P c catching fuel (some (fitting cfg)) w supply main = .ok (some (s, outs))) (hs : FitChanges c s.sys.history) :
    ∃ σ, CourseT P catching (Scene.start (delims cfg) w) main outs σ ∧ Shows (heapOps c) s.sys σ ∧
      Accounted s.sys.reg.nodes ∧ Accounted s.sys.reg.buckets := by
  obtain ⟨⟨m, t⟩, h1, h⟩ := Res.bind_eq_ok.1 h
  cases t with
  | true => cases h
  | false =>
    obtain ⟨⟨s', outs'⟩, h2, h⟩ := Res.bind_eq_ok.1 h
    cases h
    obtain ⟨m', t', g1, g2, _⟩ := heap_madeT hc.nodeSize hc.indexSize hc.load hc.small (!supply 0)
    have e := g1.symm.trans h1
    cases e
    have impl := heap_implementsT hc.nodeSize hc.indexSize hc.load
    obtain ⟨_, k2⟩ := main_sound impl heapHandled_prefix main h2
    have hs' : HeapHandled c s.sys.history := ⟨hs.removals, hs.nodes, hs.buckets⟩
    obtain ⟨σ, h3, h4, _⟩ := k2 hs' (σ := Scene.start (delims cfg) w) ⟨g2 rfl, [], Pic.start hp w⟩
    exact ⟨σ, h3, h4.shows impl hs', Represents.accounted h4.reg⟩

/-- **C94 (complete).** Every way the semantics allows is one that the library goes, for some supply of memory. -/
theorem C94_complete_partial (hp : Proper cfg) (hc : FitMap c) (h : CourseT P catching (Scene.start (delims cfg) w) main outs σ)
    (hs : FitChanges c σ.changes) :
    ∃ F supply s, (∀ fuel, F ≤ fuel → observedT P c catching fuel (some (fitting cfg)) w supply main = .ok (some (s, outs))) ∧
      Shows (heapOps c) s.sys σ := by
  have impl := heap_implementsT hc.nodeSize hc.indexSize hc.load
  obtain ⟨m, t, g1, g2, g3⟩ := heap_madeT hc.nodeSize hc.indexSize hc.load hc.small false
  have ht : t = false := by
    cases t with
    | false => rfl
    | true => exact absurd (g3 rfl) (by simp)
  subst ht
  have hs' : HeapHandled c σ.changes := ⟨hs.removals, hs.nodes, hs.buckets⟩
  obtain ⟨F, bs, s', h1, h2⟩ := course_back impl heapHandled_prefix h (freshSys m (some (fitting cfg)) w)
    ⟨g2 rfl, [], Pic.start hp w⟩ hs'
  refine ⟨F, feed (true :: bs) (fun _ => true), fed s' [] (fun _ => true), fun fuel hf => ?_, ?_⟩
  · have := h2 fuel hf (fun _ => true)
    unfold observedT
    rw [show (!feed (true :: bs) (fun _ => true) 0) = false from rfl, g1, Res.bind_ok]
    show (mainT P (heapTOps c) catching fuel (fed (freshSys m (some (fitting cfg)) w) bs fun _ => true) main).bind _ = _
    rw [this]
    rfl
  · refine h1.shows impl ?_
    rw [h1.changes]
    exact hs'

/-- **C94 (meaning).** So the ways of a program that the semantics allows are exactly the ways it goes, over all supplies of memory and
depths of recursion. In particular a program without a derivation has undefined behaviour or never ends, however memory runs out. -/
theorem C94_meaning_partial (hp : Proper cfg) (hc : FitMap c) :
    (∃ σ, CourseT P catching (Scene.start (delims cfg) w) main outs σ ∧ FitChanges c σ.changes) ↔
      ∃ fuel supply s, observedT P c catching fuel (some (fitting cfg)) w supply main = .ok (some (s, outs)) ∧
        FitChanges c s.sys.history := by
  constructor
  · rintro ⟨σ, hd, hs⟩
    obtain ⟨F, supply, s, h1, h2⟩ := C94_complete_partial hp hc hd hs
    exact ⟨F, supply, s, h1 F (Nat.le_refl _), by rw [h2.changes]; exact hs⟩
  · rintro ⟨fuel, supply, s, h, hs⟩
    obtain ⟨σ, h1, h2, _⟩ := C94_sound_partial hp hc h hs
    exact ⟨σ, h1, by rw [← h2.changes]; exact hs⟩

/-- **C94 (nothing fails).** While there is memory, everything is as in the model without failures, so all other claims about
`execute` apply. For every container that does not throw while there is memory. -/
theorem C94_plenty (hT : Calm T) (fuel : Nat) (s : Sys S W C D) (req : Request) :
    executeT P T catching fuel ⟨s, fun _ => true⟩ req =
      (execute (fun k => calmDef (P k)) T.ops catching fuel s req).bind (fun x => .ok (⟨x.1, fun _ => true⟩, x.2)) := by
  have := nested_rich (P := P) (catching := catching) hT fuel 0
  cases req with
  | line t => exact this.1 s t
  | input i => exact this.2 s i

/-- The hash map does not throw while there is memory. -/
theorem C94_map_calm (c : HMap.Cfg Bytes (Command C D)) : Calm (heapTOps c) := fun m n x => C84_never c m (.on 0 (.put n x))

/-- **C94 (what escapes).** With `COIL_CATCH_EXCEPTIONS` the only exception that leaves `execute` is `std::bad_alloc`, whatever the
functions throw. -/
theorem C94_escapes {fuel : Nat} {s s' : TSys S W C D} {req : Request} {x : Exn}
    (h : executeT P T true fuel s req = .ok (s', .error x)) : x = outOfMemory := by
  have hin : ∀ {ne : TNested S W C D} {depth s s' i}, executeInputT P T true ne depth s i = .ok (s', .error x) → x = outOfMemory := by
    intro ne depth s s' i h
    rw [executeInputT_eq] at h
    obtain ⟨⟨s1, c1, e1⟩, h1, h⟩ := Res.bind_eq_ok.1 h
    have ht : ∀ {st : TSys S W C D} {c e}, tellT st c e = (s1, c1, e1) → e1 = none ∨ e1 = some badAlloc := by
      intro st c e ht
      unfold tellT at ht
      split at ht <;> cases ht
      · exact .inl rfl
      · exact .inr rfl
    have he : e1 = none ∨ e1 = some badAlloc := by
      unfold executeCtxT at h1
      split at h1
      · exact ht (Res.ok.inj h1)
      · obtain ⟨o, _, h1⟩ := Res.bind_eq_ok.1 h1
        cases o with
        | none => exact ht (Res.ok.inj h1)
        | some cmd =>
          simp only at h1
          split at h1
          · obtain ⟨⟨s2, c2, e2⟩, _, h1⟩ := Res.bind_eq_ok.1 h1
            cases e2 with
            | none => cases h1; exact .inl rfl
            | some y =>
              cases y with
              | std what => exact ht (Res.ok.inj h1)
              | other => exact ht (Res.ok.inj h1)
          · exact ht (Res.ok.inj h1)
    rcases he with rfl | rfl
    · cases h
    · cases h; rfl
  cases fuel with
  | zero => cases req <;> cases h
  | succ fuel =>
    cases req with
    | input i => exact hin h
    | line t =>
      replace h : executeLineT P T true (nestedT P T true fuel 1) 0 s t = .ok (s', .error x) := h
      unfold executeLineT at h
      split at h
      · cases h
      · obtain ⟨r, _, h⟩ := Res.bind_eq_ok.1 h
        split at h
        · cases r with
          | error e =>
            simp only at h
            split at h <;> cases h
            rfl
          | ok i => exact hin h
        · cases h; rfl

/-- **C94 (no silent loss).** A result without errors comes from a function that was called with all its arguments and that returned: an
allocation that fails never passes for success. -/
theorem C94_honest {σ σ' : Scene W C D} {i : Input} {r : ExecResult} (h : PerformsT P catching σ (.input i) σ' (.ok r)) (hr : r.errors = []) :
    ∃ f xs es v, Calls P σ i f ∧ ConvertTo (P f.code).params i.arguments xs ∧
      DoesT P catching f i.namedArguments [] ((P f.code).body xs) σ es (.ret v) σ' ∧ errorsOf es = [] ∧
      r = { sofar i es with returnValue := (P f.code).print.map (fun p => p v) } := by
  have raised : ∀ {x : Exn} {q : ExecResult} {out : ExecOut}, Raised catching x q out → out = .ok r → False := by
    intro x q out hx ho
    cases hx with
    | caught _ =>
      cases ho
      simp at hr
    | lost _ => cases ho
    | passed _ => cases ho
  cases h with
  | refused _ => cases hr
  | unconverted _ _ _ hx => exact (raised hx rfl).elim
  | mismatch _ _ hne => exact absurd hr hne
  | unreported _ _ _ hx => exact (raised hx rfl).elim
  | returned h1 h2 h3 =>
    rename_i f xs es v
    have he : errorsOf es = [] := hr
    exact ⟨f, xs, es, v, h1, h2, h3, he, by rw [if_pos he]⟩
  | unprinted _ _ _ _ hx => exact (raised hx rfl).elim
  | threw _ _ _ hx => exact (raised hx rfl).elim

/-- **C94 (all or nothing).** A command that does not get to call its function changes nothing. -/
theorem C94_nothing {σ σ' : Scene W C D} {i : Input} {out : ExecOut} (h : PerformsT P catching σ (.input i) σ' out)
    (hno : ∀ f xs, Calls P σ i f → ¬ ConvertTo (P f.code).params i.arguments xs) : σ' = σ := by
  cases h with
  | refused _ => rfl
  | untold _ => rfl
  | unconverted _ _ _ _ => rfl
  | mismatch _ _ _ => rfl
  | unreported _ _ _ _ => rfl
  | returned h1 h2 _ => exact absurd h2 (hno _ _ h1)
  | unprinted h1 h2 _ _ _ => exact absurd h2 (hno _ _ h1)
  | threw h1 h2 _ _ => exact absurd h2 (hno _ _ h1)

/-! ## Examples -/

namespace Demo

/-- A function that returns `int`. -/
def tfn (ps : List Param) (body : Args ps → TProg Int Nat Nat Int) : TDef Int Nat Nat :=
  ⟨ps, Int, lit "int", some (intConv pl .int).toString, body⟩

/-- Code that lets an exception of the library pass. -/
def orThrow {R : Type} (k : TProg Int Nat Nat R) : Bool → TProg Int Nat Nat R := fun threw => if threw then .throw badAlloc else k

/-- The functions: the state; adding to it and logging, with exceptions passed on; adding a command and telling whether that failed;
throwing. -/
def PT : Nat → TDef Int Nat Nat
  | 0 => tfn [] fun _ => .get fun w => .ret w
  | 1 => tfn [int] fun a => .get fun w => .set (w + a.1) (.log (lit "x") (orThrow (.logline (lit "y") (orThrow (.ret (w + a.1))))))
  | 3 => tfn [] fun _ => .throw (.std (lit "boom"))
  | _ => tfn [] fun _ => .add (lit "new") [(0, 0)] fun threw => .ret (if threw then 1 else 0)

/-- One action after another, whatever happens. -/
def allOf : List (TAction Int Nat Nat) → TMain Int Nat Nat
  | [] => .stop
  | a :: rest => .act a (fun _ => allOf rest)

/-- Commands, then lines. -/
def tmain : TMain Int Nat Nat :=
  allOf [.add (lit "add") [(1, 0)], .add (lit "more") [(4, 0)], .exec (.line (lit "add 5")), .exec (.line (lit "more")),
    .exec (.line (lit "new"))]

/-- What an action gave. -/
inductive Shown where
  | done
  | escaped (x : Exn)
  | gave (errors : List Bytes) (value : Option Bytes) (output : Bytes)
  deriving DecidableEq

/-- What an action gave. -/
abbrev shown : Option ExecOut → Shown
  | none => .done
  | some (.error x) => .escaped x
  | some (.ok r) => .gave r.errors r.returnValue r.output

/-- What a program did. -/
structure Outcome where
  user : Int
  freed : List Nat
  names : List Bytes
  outs : List Shown
  deriving DecidableEq

/-- What a run left. -/
abbrev outcome (fixed : Bool) (x : TSys (HMap.HState Bytes (Command Nat Nat)) Int Nat Nat × List (Option ExecOut)) : Outcome :=
  ⟨x.1.sys.user, x.1.sys.freed, ((heapOps (heapCfg fixed)).all x.1.sys.reg).map Command.name, x.2.map shown⟩

/-- A run in which the allocations with these numbers fail. -/
def run (fixed : Bool) (fails : List Nat) (main : TMain Int Nat Nat) :=
  observedT PT (heapCfg fixed) true 5 (some (fitting (LexCfg.default true))) 10 (fun n => decide (n ∉ fails)) main

/-- The scene at the start. -/
def tscene : Scene Int Nat Nat := Scene.start (delims (LexCfg.default true)) 10

theorem heapCfg_fit (fixed : Bool) : FitMap (heapCfg fixed) :=
  ⟨by simp [heapCfg], by simp [heapCfg], fun b hb => by simp [heapCfg, overOne]; omega, by simp [heapCfg]⟩

end Demo

/-- Nothing fails. -/
example : (Demo.run true [] Demo.tmain).map (Option.map (Demo.outcome true)) = .ok (some ⟨15, [], [lit "add", lit "more", lit "new"],
    [.done, .done, .gave [] (some (lit "15")) (lit "xy\n"), .gave [] (some (lit "0")) [], .gave [] (some (lit "15")) []]⟩) := by
  decide +kernel

/-- There is no memory for the first output of `add`: the state is changed already, and the exception is reported. -/
example : (Demo.run true [9] Demo.tmain).map (Option.map (Demo.outcome true)) = .ok (some ⟨15, [], [lit "add", lit "more", lit "new"],
    [.done, .done, .gave [lit "Exception caught during execution: std::bad_alloc"] none [], .gave [] (some (lit "0")) [],
      .gave [] (some (lit "15")) []]⟩) := by decide +kernel

/-- There is no memory for a node while a command registers `new`: the function object, number 2, is destroyed, and the command
finds out. -/
example : (Demo.run true [14] Demo.tmain).map (Option.map (Demo.outcome true)) = .ok (some ⟨15, [2], [lit "add", lit "more"],
    [.done, .done, .gave [] (some (lit "15")) (lit "xy\n"), .gave [] (some (lit "1")) [],
      .gave [lit "No function 'new' is registered"] none []]⟩) := by decide +kernel

/-- There is not even memory for the registry. -/
example : (Demo.run true [0] Demo.tmain).map (Option.map (Demo.outcome true)) = .ok none := by decide +kernel

/-- The run with a failing output, as one of the ways in the semantics; and there the state is 15. -/
example : ∃ outs σ, CourseT Demo.PT true Demo.tscene Demo.tmain outs σ ∧ σ.user = 15 ∧
    outs.map Demo.shown = [.done, .done, .gave [lit "Exception caught during execution: std::bad_alloc"] none [],
      .gave [] (some (lit "0")) [], .gave [] (some (lit "15")) []] := by
  have h : (Demo.run true [9] Demo.tmain).map (Option.map (Demo.outcome true)) = .ok (some ⟨15, [], [lit "add", lit "more", lit "new"],
    [.done, .done, .gave [lit "Exception caught during execution: std::bad_alloc"] none [], .gave [] (some (lit "0")) [],
      .gave [] (some (lit "15")) []]⟩) := by decide +kernel
  have hl : (Demo.run true [9] Demo.tmain).map (Option.map fun x => x.1.sys.history.length) = .ok (some 3) := by decide +kernel
  cases hr : Demo.run true [9] Demo.tmain with
  | ub u => rw [hr] at h; cases h
  | diverge => rw [hr] at h; cases h
  | ok x =>
    rw [hr] at h hl
    cases x with
    | none => cases h
    | some x =>
      obtain ⟨s, outs⟩ := x
      simp only [Res.map_ok, Option.map_some, Res.ok.injEq, Option.some.injEq, Demo.outcome, Demo.Outcome.mk.injEq] at h hl
      obtain ⟨σ, g1, g2, _⟩ := C94_sound_partial (proper_default true) (Demo.heapCfg_fit true) hr
        ⟨.inl rfl, by rw [hl]; decide, by rw [hl]; decide⟩
      exact ⟨outs, σ, g1, by rw [← g2.user]; exact h.1, h.2.2.2⟩

/-- **C94: exceptions do leave `execute`**, although `COIL_CATCH_EXCEPTIONS` is on: there is no memory for the tokens of `add 5`; there is no
memory for the report of the exception `boom`, which is lost. -/
theorem C94_catches_false :
    (Demo.run true [7] Demo.tmain).map (Option.map fun x => (x.2.map Demo.shown)[2]?) = .ok (some (some (.escaped outOfMemory))) ∧
    (Demo.run true [5] (Demo.allOf [.add (lit "b") [(3, 0)], .exec (.line (lit "b"))])).map (Option.map fun x => x.2.map Demo.shown) =
      .ok (some [.done, .escaped outOfMemory]) := by
  refine ⟨?_, ?_⟩ <;> decide +kernel

namespace Demo

/-- The commands that lose `p` (C24, C32), and then a call of `p`. -/
def tlosing : TMain Int Nat Nat :=
  allOf [.add (lit "a") [(0, 1)], .add (lit "d") [(0, 2)], .add (lit "h") [(0, 3)], .add (lit "l") [(0, 4)], .remove (lit "d"),
    .remove (lit "a"), .add (lit "p") [(0, 5)], .add (lit "a") [(0, 6)], .remove (lit "l"), .exec (.input ⟨lit "p", [], []⟩)]

theorem course_add {PT : Nat → TDef Int Nat Nat} {σ n fs next outs σ' rest} (h : CourseT PT true σ (.act (.add n fs) next) outs σ')
    (ho : outs.map shown = .done :: rest) : ∃ outs', CourseT PT true (σ.add n fs) (next none) outs' σ' ∧ outs'.map shown = rest := by
  cases h with
  | add h => exact ⟨_, h, (List.cons.inj ho).2⟩
  | addThrew h => cases (List.cons.inj ho).1

theorem course_remove {PT : Nat → TDef Int Nat Nat} {σ n next outs σ' x rest} (h : CourseT PT true σ (.act (.remove n) next) outs σ')
    (ho : outs.map shown = x :: rest) : ∃ outs', CourseT PT true (σ.remove n) (next none) outs' σ' ∧ outs'.map shown = rest := by
  cases h with
  | remove h => exact ⟨_, h, (List.cons.inj ho).2⟩

/-- The state is read and given, or there is no memory for its text. -/
theorem state_given {PT' : Nat → TDef Int Nat Nat} (hPT : PT' 0 = PT 0) {σ σ' i out f} (h : PerformsT PT' true σ (.input i) σ' out)
    (hn : i.name ≠ []) (ha : i.arguments = []) (hc : σ.commands i.name = some [f]) (hf : f.code = 0) {m : Bytes}
    (hm : m ≠ exceptionError outOfMemory) : shown (some out) ≠ .gave [m] none [] := by
  have hlen : (PT' f.code).params.length = 0 := by rw [hf, hPT]; rfl
  have hnr : ∀ m, ¬ Refused PT' σ i m := by
    rintro m hm
    cases hm with
    | noName h => exact hn h
    | unknown _ h => rw [hc] at h; cases h
    | count _ h hg =>
      rw [hc] at h
      cases h
      exact hg f (List.mem_singleton.2 rfl) (by rw [hlen, ha]; rfl)
  have hcall : ∀ g, Calls PT' σ i g → g.code = 0 := by
    rintro g ⟨_, fs, h, pre, post, hg, _, _⟩
    rw [hc] at h
    cases h
    have hm : g ∈ [f] := hg ▸ List.mem_append_right _ (List.mem_cons_self ..)
    rw [List.mem_singleton.1 hm, hf]
  have hbody : ∀ k (e : k = 0) (g : Inst Nat Nat) l xs σ es en σ', DoesT PT' true g l [] ((PT' k).body xs) σ es en σ' →
      es = [] ∧ ∃ r, en = .ret r := by
    rintro k rfl
    rw [hPT]
    intro g l xs σ es en σ' hd
    change DoesT PT' true g l [] (.get fun w => .ret w) σ es en σ' at hd
    cases hd with
    | get hd => cases hd with | ret => exact ⟨rfl, _, rfl⟩
  have raised : ∀ {q : ExecResult}, q.errors = [] → Raised true outOfMemory q out → shown (some out) ≠ .gave [m] none [] := by
    intro q hq hx
    cases hx with
    | caught _ =>
      intro h
      simp only [shown, Shown.gave.injEq, hq, List.nil_append, List.cons.injEq, and_true] at h
      exact hm h.1.symm
    | lost _ => intro h; cases h
    | passed hfalse => exact absurd hfalse (by decide)
  have hce : ∀ g, Calls PT' σ i g → conversionErrors (PT' g.code).params i.arguments = [] := by
    intro g hg
    rw [hcall g hg, hPT, ha]
    rfl
  cases h with
  | refused hr => exact absurd hr (hnr _)
  | untold hr => exact absurd hr (hnr _)
  | unconverted _ hl _ _ => rw [ha] at hl; exact absurd hl (Nat.not_lt_zero _)
  | mismatch h1 _ hne => exact absurd (hce _ h1) hne
  | unreported h1 _ hl _ => rw [hce _ h1] at hl; exact absurd hl (Nat.not_lt_zero _)
  | returned h1 _ hd =>
    obtain ⟨rfl, _⟩ := hbody _ (hcall _ h1) _ _ _ _ _ _ _ hd
    intro h
    cases h
  | unprinted h1 _ hd _ hx =>
    obtain ⟨rfl, _⟩ := hbody _ (hcall _ h1) _ _ _ _ _ _ _ hd
    exact raised rfl hx
  | threw h1 _ hd _ =>
    obtain ⟨_, _, he⟩ := hbody _ (hcall _ h1) _ _ _ _ _ _ _ hd
    cases he

end Demo

/-- **C94 is false of the map as it is**: with all memory of the world it loses the command `p`, which the semantics does not allow. -/
theorem C94_as_is_false : ∃ s outs, Demo.run false [] Demo.tlosing = .ok (some (s, outs)) ∧
    ¬ ∃ σ, CourseT Demo.PT true Demo.tscene Demo.tlosing outs σ := by
  have h : (Demo.run false [] Demo.tlosing).map (Option.map fun x => x.2.map Demo.shown) = .ok (some
    (List.replicate 9 .done ++ [.gave [lit "No function 'p' is registered"] none []])) := by decide +kernel
  cases hr : Demo.run false [] Demo.tlosing with
  | ub u => rw [hr] at h; cases h
  | diverge => rw [hr] at h; cases h
  | ok x =>
    rw [hr] at h
    cases x with
    | none => cases h
    | some x =>
      obtain ⟨s, outs⟩ := x
      simp only [Res.map_ok, Option.map_some, Res.ok.injEq, Option.some.injEq] at h
      refine ⟨s, outs, rfl, ?_⟩
      rintro ⟨σ, hd⟩
      obtain ⟨_, hd, h⟩ := Demo.course_add hd h
      obtain ⟨_, hd, h⟩ := Demo.course_add hd h
      obtain ⟨_, hd, h⟩ := Demo.course_add hd h
      obtain ⟨_, hd, h⟩ := Demo.course_add hd h
      obtain ⟨_, hd, h⟩ := Demo.course_remove hd h
      obtain ⟨_, hd, h⟩ := Demo.course_remove hd h
      obtain ⟨_, hd, h⟩ := Demo.course_add hd h
      obtain ⟨_, hd, h⟩ := Demo.course_add hd h
      obtain ⟨_, hd, h⟩ := Demo.course_remove hd h
      cases hd with
      | exec hp hd =>
        cases hd
        rename_i o
        have hx : Demo.shown (some o) = .gave [lit "No function 'p' is registered"] none [] := (List.cons.inj h).1
        generalize hσ : Scene.remove _ (lit "l") = σ at hp
        have hk : σ.commands (lit "p") = some [⟨4, 0, 5⟩] := by rw [← hσ]; rfl
        exact Demo.state_given rfl hp (by decide +kernel) rfl hk rfl (by decide +kernel) hx

end Coil
