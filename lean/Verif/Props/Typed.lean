import Verif.Proofs.Typed

/-!
# Typed calls from written command lines (C53, C54)

These theorems combine the lexer (C01), the conversions (C11-C18) and the execution (C26, C29): what is written on a command line
reaches the function as the values meant.
-/

namespace Coil
open Spec

variable {S W C D : Type} {P : C → FunctorDef W C D} {ops : RegOps S C D} {catching : Bool} {fuel depth : Nat}
  {s s' : Sys S W C D} {out : ExecOut} {cmd : Command C D} {f : Inst C D}

/-! ## C53 -/

/-- **C53.** Any spelling of a command (any quotes, parentheses, separators and white space; numerals with leading
zeros, signs and so on) whose positional arguments mean the values `xs` runs the function with exactly the values `xs`, once. -/
theorem C53_typed_call {pl : Platform} {cs : Bool} {c : SCommand} (hl : s.lexer = some (lexRead (LexCfg.default cs)))
    (hw : c.WF (delims (LexCfg.default cs))) (hn : c.name.simpleText ≠ [])
    (hf : ops.find s.reg c.name.simpleText = .ok (some cmd))
    (hs : FirstOfArity P (positionals c.items).length cmd.functors f)
    {xs : Args (P f.code).params} (hx : Supplied pl (P f.code).params (positionals c.items) xs)
    (h : (nested P ops catching fuel depth).exec s (.line c.text) = .ok (s', out)) :
    ∃ deeper es e, s'.calls = s.calls ++ (depth, f.id) :: deeper ∧ (∀ c ∈ deeper, depth < c.1) ∧
      Runs ops (nested P ops catching (fuel - 1) (depth + 1)) f (nameds c.items) [] ((P f.code).body xs)
        { s with calls := s.calls ++ [(depth, f.id)] } es e s' :=
  C26_one_call (s := s) (req := .line c.text) (input := c.denotes) ⟨_, hl, C01_roundtrip cs c hw⟩ hn hf hs (supplied_convertTo hx) h

/-- **C53**, converse: whenever that function body can run, executing the line runs it. -/
theorem C53_typed_call_happens {pl : Platform} {cs : Bool} {c : SCommand}
    (hl : s.lexer = some (lexRead (LexCfg.default cs)))
    (hw : c.WF (delims (LexCfg.default cs))) (hn : c.name.simpleText ≠ [])
    (hf : ops.find s.reg c.name.simpleText = .ok (some cmd))
    (hs : FirstOfArity P (positionals c.items).length cmd.functors f) (hd : f.id ∉ s.freed)
    {xs : Args (P f.code).params} (hx : Supplied pl (P f.code).params (positionals c.items) xs)
    {es : List CtxEvent} {e : End (P f.code).R}
    (h : Runs ops (nested P ops catching fuel (depth + 1)) f (nameds c.items) [] ((P f.code).body xs)
        { s with calls := s.calls ++ [(depth, f.id)] } es e s') :
    ∃ out, (nested P ops catching (fuel + 1) depth).exec s (.line c.text) = .ok (s', out) :=
  C26_call_happens (s := s) (req := .line c.text) (input := c.denotes) ⟨_, hl, C01_roundtrip cs c hw⟩ hn hf hs hd (supplied_convertTo hx) h

/-- **C53.** What an argument list means is unique: no line can be read in two ways. -/
theorem C53_meaning_unique {pl : Platform} {ps : List Param} {vs : List Value} {xs ys : Args ps}
    (h : Supplied pl ps vs xs) (h' : Supplied pl ps vs ys) : xs = ys :=
  convertTo_unique (supplied_convertTo h) (supplied_convertTo h')

/-- **C53**, for single arguments of any usable type: the conversion gives the value meant. -/
theorem C53_argument (pl : Platform) (a : PTy) (ha : a.Usable) {v : Value} {x : a.T} (h : Reads pl a v x) :
    (a.conv pl).fromString v = .ok (.ok x) := reads_converts pl a ha v x h

/-- **C53.** Every value has a spelling: for every list of values of the parameter types in which numbers are within range and strings
have no quote characters (and no parentheses inside vectors), there is a line that means them; so C53_typed_call applies to it. -/
theorem C53_spellable {pl : Platform} {cs : Bool} {name : Bytes} {tys : List PTy} (ht : ∀ a ∈ tys, a.Usable)
    {xs : Args (tys.map (PTy.param pl))}
    (hx : WritableArgs pl (delims (LexCfg.default cs)) tys xs)
    (hn : ∀ c ∈ name, c ∉ (delims (LexCfg.default cs)).quotes) :
    ∃ vs, Supplied pl (tys.map (PTy.param pl)) vs xs ∧
      lexRead (LexCfg.default cs) (render 34 40 41 32 ⟨name, vs, []⟩) = .ok (.ok ⟨name, vs, []⟩) := by
  obtain ⟨vs, h1, h2⟩ := writableArgs_supplied cs ht hx
  exact ⟨vs, h1, C01_render cs _ ⟨hn, h2, by simp, by simp⟩⟩

/-- ` go 0x` is not a numeral, but ` +007` is. -/
example : Reads linux64 (.int .uchar) ⟨[lit " +007"]⟩ 7 :=
  ⟨_, rfl, ⟨false, 7, ⟨lit " ", lit "+", lit "007", rfl, by intro c h; simp [lit] at h; simp [h, CSpace], .plus,
    .snoc (ds := lit "00") (m := 0) (n := 7) (.snoc (ds := lit "0") (m := 0) (n := 0) (.one (.mk (n := 0) (by decide) rfl))
      (.mk (by decide) rfl)) (.mk (by decide) rfl)⟩, rfl⟩, by unfold InRange; decide, .inr (by decide)⟩

example : Reads linux64 (.vec (.opt .text)) ⟨[lit "a", [], lit "b"]⟩ [some (lit "a"), none, some (lit "b")] :=
  .cons ⟨_, rfl, by decide, rfl⟩ (.cons (.inr rfl) (.cons ⟨_, rfl, by decide, rfl⟩ .nil))

/-! ## C54 -/

/-- **C54.** What a function of a scalar type (integer, `bool`, string) returns is reported as a text that, used as an argument of
that type, means the value returned. -/
theorem C54_result_reads {pl : Platform} {req : Request} {input : Input} (hm : Means s.lexer req input) (hn : input.name ≠ [])
    (hf : ops.find s.reg input.name = .ok (some cmd)) (hs : FirstOfArity P input.arguments.length cmd.functors f)
    (hd : f.id ∉ s.freed) {a : PTy} (ha : a.IsScalar) {ps : List Param} {rn : Bytes} {body : Args ps → Prog W C D a.T}
    (hP : P f.code = ⟨ps, a.T, rn, some (a.conv pl).toString, body⟩) {xs : Args ps}
    (hx : ConvertTo ps input.arguments xs) {es : List CtxEvent} {r : a.T} (hr : a.Fits pl r) (he : errorsOf es = [])
    (h : Runs ops (nested P ops catching fuel (depth + 1)) f input.namedArguments [] (body xs)
        { s with calls := s.calls ++ [(depth, f.id)] } es (.ret r) s') :
    ∃ res t, (nested P ops catching (fuel + 1) depth).exec s req = .ok (s', .ok res) ∧ res.errors = [] ∧
      res.returnValue = some t ∧ Reads pl a ⟨[t]⟩ r := by
  have key : ∀ d : FunctorDef W C D, d = ⟨ps, a.T, rn, some (a.conv pl).toString, body⟩ → P f.code = d →
      ∃ (xs' : Args (P f.code).params) (r' : (P f.code).R), ConvertTo (P f.code).params input.arguments xs' ∧
        Runs ops (nested P ops catching fuel (depth + 1)) f input.namedArguments [] ((P f.code).body xs')
          { s with calls := s.calls ++ [(depth, f.id)] } es (.ret r') s' ∧
        ∃ p, (P f.code).print = some p ∧ p r' = (a.conv pl).toString r := by
    rintro d rfl hd
    rw [hd]
    exact ⟨xs, r, hx, h, _, rfl, rfl⟩
  obtain ⟨xs', r', h1, h2, p, h3, h4⟩ := key _ rfl hP
  obtain ⟨res, g1, g2, g3, _, _⟩ := C29_returned hm hn hf hs hd h1 h2
  exact ⟨res, _, g1, by rw [g2, he], by rw [g3 he p h3, h4], reads_print pl ha hr⟩

/-- **C54.** Passing it on: the reported text, quoted and put behind the name of another command, calls that command with
the value returned, provided the text has no quote character (numbers and truth values never have one). -/
theorem C54_pass_on {pl : Platform} {cs : Bool} {a : PTy} (ha : a.Usable) {t name : Bytes} {r : a.T} (hr : Reads pl a ⟨[t]⟩ r)
    (hl : s.lexer = some (lexRead (LexCfg.default cs))) (hn : name ≠ [])
    (hnq : ∀ c ∈ name, c ∉ (delims (LexCfg.default cs)).quotes) (htq : ∀ c ∈ t, c ∉ (delims (LexCfg.default cs)).quotes)
    (hf : ops.find s.reg name = .ok (some cmd)) (hs : FirstOfArity P 1 cmd.functors f)
    {xs : Args (P f.code).params} (hp : (P f.code).params = [a.param pl])
    (hx : xs = hp ▸ ((r, ()) : Args [a.param pl]))
    (h : (nested P ops catching fuel depth).exec s (.line (lit "\"" ++ name ++ lit "\" \"" ++ t ++ lit "\"")) = .ok (s', out)) :
    ∃ deeper es e, s'.calls = s.calls ++ (depth, f.id) :: deeper ∧ (∀ c ∈ deeper, depth < c.1) ∧
      Runs ops (nested P ops catching (fuel - 1) (depth + 1)) f [] [] ((P f.code).body xs)
        { s with calls := s.calls ++ [(depth, f.id)] } es e s' := by
  have hline : lit "\"" ++ name ++ lit "\" \"" ++ t ++ lit "\"" = render 34 40 41 32 ⟨name, [⟨[t]⟩], []⟩ := by
    simp [render, quoteValue, lit]
  rw [hline] at h
  refine C26_one_call (s := s) (req := .line _) (input := ⟨name, [⟨[t]⟩], []⟩) ⟨_, hl, C01_render cs _ ⟨hnq, ?_, by simp, by simp⟩⟩ hn hf hs ?_ h
  · intro v hv
    simp only [List.mem_singleton] at hv
    subst hv
    refine ⟨?_, by simp⟩
    intro w hw
    simp only [List.mem_singleton] at hw
    subst hw
    exact htq
  · subst hx
    have : ∀ (ps : List Param) (hp : ps = [a.param pl]),
        ConvertTo ps [⟨[t]⟩] (hp ▸ ((r, ()) : Args [a.param pl])) := by
      rintro ps rfl
      exact supplied_convertTo (.cons ha hr .nil)
    exact this _ hp

/-- **C54.** The exact limit: the text form of a vector cannot be used as an argument for a vector. -/
theorem C54_vector_text : (vecConv (intConv linux64 .int)).toString [1, 2] = lit "[1, 2]" ∧
    (vecConv (intConv linux64 .int)).fromString ⟨[lit "[1, 2]"]⟩ =
      .ok (.error (lit "Unable to convert '[1, 2]' to type 'vector<int>': Unable to convert '[1, 2]' to type 'int'")) := by
  refine ⟨?_, ?_⟩ <;> decide +kernel

/-- `two` returns the sum as text; `add` then gets it as a number. -/
example : (do
    let s ← Demo.start
    let (s, o) ← execute Demo.P Demo.ops true 5 s (.line (lit "two 20 3"))
    match o with
    | .ok res =>
      let (s, _) ← execute Demo.P Demo.ops true 5 s
        (.line (lit "\"" ++ lit "add" ++ lit "\" \"" ++ res.returnValue.getD [] ++ lit "\""))
      .ok (some s.user)
    | .error _ => .ok none) = (.ok (some 33) : Res (Option Int)) := by decide +kernel

end Coil
