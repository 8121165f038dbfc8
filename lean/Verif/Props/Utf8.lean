import Verif.Proofs.Utf8Exec
import Verif.Props.Exec

/-!
# UTF-8 in, UTF-8 out (C81)

coil works on bytes. Because its delimiters are ASCII characters it never cuts a UTF-8 character in two.
-/

namespace Coil
open Spec

/-- **C81.** Parsing UTF-8: the name, every argument, every part of a compound value, every key and every error message are UTF-8. For
any sensible choice of ASCII delimiters. -/
theorem C81_parse {cfg : LexCfg} (hp : Proper cfg) (ha : AsciiDelims cfg) : Utf8Lexer (lexRead cfg) :=
  fun _ ht => ⟨fun _ h => Utf.accepts ha ((lexRead_ok_iff hp ht.2).1 h) ht.1,
    fun _ h => Utf.rejects ha ((lexRead_error_iff hp ht.2).1 h) ht.1⟩

/-- **C81**, for the default delimiters. -/
theorem C81_parse_default (charSigned : Bool) : Utf8Lexer (lexRead (LexCfg.default charSigned)) := by
  refine C81_parse (proper_default _) ?_
  intro c hc
  have : ∀ c ∈ lit "()" ++ lit "'\"" ++ lit ",;|" ++ lit " \t\n\r", c ≤ 0x7F := by decide +kernel
  refine this c ?_
  simp only [List.mem_append]
  rcases hc with h | h | h | h
  · exact .inl (.inl (.inl h))
  · exact .inl (.inl (.inr h))
  · exact .inl (.inr h)
  · exact .inr h

/-- **C81**, why the delimiters have to be ASCII: with the byte 0xA0 as white space (and unsigned `char`) the letter `à` is cut in two. -/
theorem C81_other_delimiters : ∃ cfg, Proper cfg ∧ ∃ t i, Utf8Line t ∧ lexRead cfg t = .ok (.ok i) ∧ ¬ Utf8 i.name := by
  refine ⟨⟨lit "()", lit "'", lit ",", [0xA0], false⟩, ?_, [0xC3, 0xA0], ⟨[0xC3], [], []⟩, ⟨.two (by decide) (by decide) .nil, by decide⟩,
    by decide +kernel, ?_⟩
  · refine ⟨⟨by intro h; simp at h⟩, ?_, ?_, ?_, ?_, ?_, ?_⟩ <;> decide
  · intro h
    cases h
    rename_i h _
    exact absurd h (by decide)

/-- **C81.** The serializers of the library make UTF-8 of UTF-8, whatever they are composed of. -/
theorem C81_serializers (pl : Platform) :
    (∀ t, Utf8Conv (intConv pl t) (fun _ => True)) ∧ Utf8Conv (boolConv pl) (fun _ => True) ∧ Utf8Conv stringConv Utf8 ∧
    Utf8Conv valueConv Utf8Value ∧
    (∀ n, Utf8 n → ∀ F tiny, Utf8Conv (floatConv n (Fl.lib F tiny)) (fun _ => True)) ∧
    (∀ (T : Type) (c : Conv T) G, Utf8Conv c G → Utf8Conv (vecConv c) (fun l => ∀ x ∈ l, G x)) ∧
    (∀ (T : Type) (c : Conv T) G, Utf8Conv c G → Utf8Conv (optConv c) (fun o => ∀ x, o = some x → G x)) :=
  ⟨Utf.int_utf8 pl, Utf.bool_utf8 pl, Utf.string_utf8, Utf.value_utf8, fun _ h F tiny => Utf.float_utf8 h F tiny,
    fun _ _ _ h => Utf.vec_utf8 h, fun _ _ _ h => Utf.opt_utf8 h⟩

section

variable {S W C D : Type} {I : W → Prop} {P : C → FunctorDef W C D} {ops : RegOps S C D} {catching : Bool} {fuel : Nat}
  {s s' : Sys S W C D}

/-- **C81.** Executing a UTF-8 request in a program whose functions say only UTF-8: every text of the result is UTF-8. The functions may
execute, add and remove commands themselves. -/
theorem C81_execute (hP : ∀ c, Utf8Function I (P c)) (hs : Utf8Sys I s) {r : Request} (hr : Utf8Request r) {o : ExecOut}
    (h : execute P ops catching fuel s r = .ok (s', o)) : Utf8Out o ∧ Utf8Sys I s' := by
  obtain ⟨h1, h2⟩ := Utf.nested_utf8 hP fuel 0 s r s' o hs hr h
  exact ⟨h2, h1⟩

/-- **C81**, for any sequence of requests. -/
theorem C81_executeAll (hP : ∀ c, Utf8Function I (P c)) (hs : Utf8Sys I s) {rs : List Request} (hr : ∀ r ∈ rs, Utf8Request r)
    {os : List ExecOut} (h : executeAll P ops catching fuel s rs = .ok (s', os)) : (∀ o ∈ os, Utf8Out o) ∧ Utf8Sys I s' := by
  induction rs generalizing s os with
  | nil => simp [executeAll] at h; obtain ⟨rfl, rfl⟩ := h; exact ⟨by simp, hs⟩
  | cons r rs ih =>
    unfold executeAll at h
    obtain ⟨⟨s1, o⟩, h1, h⟩ := Res.bind_eq_ok.1 h
    obtain ⟨⟨s2, os'⟩, h2, h⟩ := Res.bind_eq_ok.1 h
    simp at h
    obtain ⟨rfl, rfl⟩ := h
    obtain ⟨g1, g2⟩ := C81_execute hP hs (hr r (by simp)) h1
    obtain ⟨g3, g4⟩ := ih g2 (fun r' hr' => hr r' (by simp [hr'])) h2
    refine ⟨?_, g4⟩
    intro x hx
    simp at hx
    rcases hx with rfl | hx
    · exact g1
    · exact g3 x hx

/-- **C81.** Reading named arguments keeps to UTF-8, so functions that use them satisfy the hypothesis of `C81_execute`. -/
theorem C81_named {T : Type} {conv : Conv T} {G : T → Prop} (hc : Utf8Conv conv G) {key : Bytes} (hk : Utf8 key) (required : Bool)
    {dflt : Option T} (hd : ∀ x, dflt = some x → G x) :
    Speaks (C := C) (D := D) I (fun o => ∀ x, o = some x → G x) (namedGetOrReportT conv key required dflt) := by
  refine Utf.speaks_bind _ (Utf.namedGetT_utf8 hc hk) ?_
  intro r hr
  cases r with
  | ok x => intro y hy; simp at hy; subst hy; exact hr
  | error e =>
    cases e with
    | missingKey m =>
      simp only
      split
      · exact ⟨hr, by intro x hx; simp at hx⟩
      · exact hd
    | typeMismatch m => exact ⟨hr, by intro x hx; simp at hx⟩

/-- **C81.** Variables and properties of UTF-8 types satisfy the hypothesis of `C81_execute`. -/
theorem C81_variable {T : Type} {conv : Conv T} {G : T → Prop} (hc : Utf8Conv conv G) {v : VarRef W T} (hr : ∀ w, I w → G (v.read w))
    (hw : ∀ w x, I w → G x → I (v.write x w)) : ∀ d ∈ variableDefs (C := C) (D := D) conv v, Utf8Function I d := by
  intro d hd
  simp only [variableDefs, List.mem_cons, List.not_mem_nil, or_false] at hd
  rcases hd with rfl | rfl
  · exact ⟨(), G, trivial, by intro f hf; cases hf; exact hc.prints, fun _ _ w h => hr w h⟩
  · exact ⟨(G, ()), G, ⟨hc, trivial⟩, by intro f hf; cases hf; exact hc.prints,
      fun a ha w h => ⟨hw w _ h ha.1, fun w' h' => hr w' h'⟩⟩

/-- **C81**, for properties. -/
theorem C81_property {T : Type} {conv : Conv T} {G : T → Prop} (hc : Utf8Conv conv G) {getter : Prog W C D T}
    {setter : T → Prog W C D Unit} (hg : Speaks I G getter) (hs : ∀ x, G x → Speaks I (fun _ => True) (setter x)) :
    ∀ d ∈ propertyDefs conv getter setter, Utf8Function I d := by
  intro d hd
  simp only [propertyDefs, List.mem_cons, List.not_mem_nil, or_false] at hd
  rcases hd with rfl | rfl
  · exact ⟨(), G, trivial, by intro f hf; cases hf; exact hc.prints, fun _ _ => hg⟩
  · exact ⟨(G, ()), G, ⟨hc, trivial⟩, by intro f hf; cases hf; exact hc.prints,
      fun a ha => Utf.speaks_bind _ (hs a.1 ha.1) (fun _ _ => hg)⟩

end

/-! ## Examples -/

namespace Utf8Demo

/-- `ä€😀`, characters of two, three and four bytes. -/
def sample : Bytes := [0xC3, 0xA4, 0xE2, 0x82, 0xAC, 0xF0, 0x9F, 0x98, 0x80]

theorem sample_utf8 : Utf8 sample :=
  .two (by decide) (by decide) (.three (by decide) (by decide) (.four (by decide) (by decide) (by decide) .nil))

/-- A function that greets, and one that takes a number. The state is a text. -/
def P : Nat → FunctorDef Bytes Nat Nat
  | 0 => ⟨[⟨Bytes, stringConv⟩], Bytes, lit "string", some stringConv.toString, fun a => .logline a.1 (.set a.1 (.ret (lit "hi " ++ a.1)))⟩
  | _ => ⟨[⟨Int, intConv Demo.pl .int⟩], Unit, lit "void", none, fun _ => .get fun w => .log w (.ret ())⟩

theorem P_utf8 : ∀ c, Utf8Function Utf8 (P c) := by
  intro c
  match c with
  | 0 =>
    exact ⟨(Utf8, ()), Utf8, ⟨Utf.string_utf8, trivial⟩, by intro f hf; cases hf; exact fun r h => h,
      fun a ha => ⟨ha.1, ha.1, Utf.append (Utf.ascii (by decide +kernel)) ha.1⟩⟩
  | n + 1 =>
    refine ⟨(fun _ => True, ()), fun _ => True, ⟨Utf.int_utf8 _ _, trivial⟩, ?_, fun a _ w hw => ⟨hw, trivial⟩⟩
    intro f hf
    cases hf

/-- A program with the two functions. -/
def start : Res (Sys Demo.Reg Bytes Nat Nat) := do
  let m ← UMap.create (djb2 true) 1
  bindingsAdd Demo.ops ⟨m, some (lexRead (LexCfg.default true)), [], [], 0, [], []⟩ (lit "f") [(0, 0)]

/-- The errors, value and output of executing lines. -/
def exec (ts : List Bytes) : Res (List (List Bytes × Option Bytes × Bytes)) := do
  let s ← start
  let s ← bindingsAdd Demo.ops s (lit "g") [(1, 0)]
  let (_, os) ← executeAll P Demo.ops true 5 s (ts.map Request.line)
  .ok (os.map fun
    | .ok r => (r.errors, r.returnValue, r.output)
    | .error _ => ([], none, []))

example : exec [lit "f " ++ sample, lit "g " ++ sample, sample, lit "f (" ++ sample] =
    .ok [([], some (lit "hi " ++ sample), sample ++ [10]),
      ([lit "Unable to convert '" ++ sample ++ lit "' to type 'int'"], none, []),
      ([lit "No function '" ++ sample ++ lit "' is registered"], none, []),
      ([lit "Syntax error: Token '(' doesn't have a corresponding opening/closing token"], none, [])] := by decide +kernel

example : Utf8Line (lit "f " ++ sample) := ⟨.one (by decide) (.one (by decide) sample_utf8), by decide +kernel⟩

end Utf8Demo

/-- A surrogate and an overlong form are not UTF-8. -/
example : ¬ Utf8 [0xED, 0xA0, 0x80] ∧ ¬ Utf8 [0xC0, 0x80] := by
  constructor
  · intro h
    cases h with
    | one h _ => exact absurd h (by decide)
    | two h _ _ => exact absurd h (by decide)
    | three h _ _ => exact absurd h (by decide)
  · intro h
    cases h with
    | one h _ => exact absurd h (by decide)
    | two h _ _ => exact absurd h (by decide)

end Coil
