import Verif.Props.Enums

/-!
# Flags (C86)

The command made by `flagsVariable` of the examples: without arguments it shows the flags that are set, with one argument
it sets them.
-/

namespace Coil
open Spec

namespace Demo

def flagsRef : VarRef Int Int := ⟨fun w => w, fun x _ => x⟩
def flagsUnit : FunctorDef Int Nat Nat := ⟨[], Unit, lit "void", none, fun _ => .ret ()⟩

/-- `entity.flags` of FlagsExample.cpp, and a flag that is too large. -/
def PF : Nat → FunctorDef Int Nat Nat
  | 0 => (flagsVariableDefs pl drawFlags flagsRef).getD 0 flagsUnit
  | 1 => (flagsVariableDefs pl drawFlags flagsRef).getD 1 flagsUnit
  | 2 => (flagsVariableDefs pl farFlags flagsRef).getD 0 flagsUnit
  | 3 => (flagsVariableDefs pl farFlags flagsRef).getD 1 flagsUnit
  | _ => flagsUnit

def startF : Res (Sys Reg Int Nat Nat) := do
  let m ← UMap.create (djb2 true) 1
  let s ← bindingsAdd ops ⟨m, some (lexRead (LexCfg.default true)), 9, [], 0, [], []⟩ (lit "entity.flags") [(0, 0), (1, 0)]
  bindingsAdd ops s (lit "far") [(2, 0), (3, 0)]

def execF (lines : List String) : Res (List (Option (Answer × Bytes)) × Int) := do
  let s ← startF
  let (s', os) ← executeAll PF ops true 3 s (lines.map fun t => .line (lit t))
  .ok (os.map answer, s'.user)

end Demo

variable {S W C D : Type} {P : C → FunctorDef W C D} {ops : RegOps S C D} {catching : Bool} {fuel depth : Nat}
  {s : Sys S W C D} {req : Request} {name : Bytes} {d0 d1 : FunctorDef W C D} {g t : Inst C D}
  {pl : Platform} {d : EnumDecl} {ref : VarRef W Int}

theorem flagText_of (hd : Declarable pl d) {z : Int} (hz : InRange pl d.underlying z) : FlagText d z (flagsName pl d z) := by
  obtain ⟨h1, h2⟩ := flagsName_eq hd hz
  by_cases h : ∃ fs, FlagsOf d z fs
  · obtain ⟨fs, hf⟩ := h
    rw [h1 fs hf]
    exact .names hf
  · rw [h2 h]
    exact .none h

/-- Arguments of enumeration type are values of it. -/
theorem enumConv_value {v : Value} {x : Int} (h : (enumConv pl d).fromString v = .ok (.ok x)) :
    InRange pl d.underlying x ∧ ValueOf d x := by
  obtain ⟨s, _, h | h⟩ := (C85_accepts_iff v x).1 h
  · exact ⟨asNumber_inRange h.1, h.2⟩
  · obtain ⟨_, n, hk, _⟩ := h
    exact ⟨hk.2.1, constant_valueOf (primary_mem hk.1)⟩

/-! ## C86 -/

/-- **C86.** Without arguments the command shows the flags that are set and changes nothing. -/
theorem C86_get (hd : Declarable pl d) (hdefs : flagsVariableDefs pl d ref = [d0, d1]) (h2 : TwoForms P ops s name d0 d1 g t)
    {named : List Named} (hm : Means s.lexer req ⟨name, [], named⟩) (hz : InRange pl d.underlying (ref.read s.user)) :
    ∃ out text, (nested P ops catching (fuel + 1) depth).exec s req =
        .ok ({ s with calls := s.calls ++ [(depth, g.id)] }, out) ∧
      answerOf out = some ⟨[], some text⟩ ∧ FlagText d (ref.read s.user) text := by
  simp only [flagsVariableDefs, List.cons.injEq, and_true] at hdefs
  obtain ⟨rfl, rfl⟩ := hdefs
  rw [exec_means hm]
  refine ⟨_, _, (executeInput_called_def h2.ne_nil h2.found (h2.first0 rfl) h2.live0 h2.def0 (xs := ())
    (by simp [ConvertTo])).2 ⟨[], .ret (flagsName pl d (ref.read s.user)), .get .ret, rfl⟩, rfl, flagText_of hd hz⟩

/-- **C86.** With one argument, all of whose parts are numbers or names of the enumeration, the command sets the variable
to the union of the flags and shows it; nothing else changes. This is always defined. -/
theorem C86_set (hd : Declarable pl d) (hdefs : flagsVariableDefs pl d ref = [d0, d1]) (h2 : TwoForms P ops s name d0 d1 g t)
    (hrw : ∀ x w, ref.read (ref.write x w) = x) {v : Value} {named : List Named} (hm : Means s.lexer req ⟨name, [v], named⟩)
    {xs : List Int} (hx : Forall2 (fun p x => (enumConv pl d).fromString ⟨[p]⟩ = .ok (.ok x)) v.subvalues xs) :
    ∃ z out text, Union pl d.underlying xs z ∧ ValueOf d z ∧
      (nested P ops catching (fuel + 1) depth).exec s req =
        .ok ({ s with user := ref.write z s.user, calls := s.calls ++ [(depth, t.id)] }, out) ∧
      answerOf out = some ⟨[], some text⟩ ∧ FlagText d z text := by
  simp only [flagsVariableDefs, List.cons.injEq, and_true] at hdefs
  obtain ⟨rfl, rfl⟩ := hdefs
  rw [exec_means hm]
  have hval : ∀ x ∈ xs, InRange pl d.underlying x ∧ ValueOf d x := by
    clear hm
    generalize v.subvalues = l at hx
    induction hx with
    | nil => intro x hx; simp at hx
    | cons h _ ih =>
      intro x hx
      rcases List.mem_cons.1 hx with rfl | hx
      · exact enumConv_value h
      · exact ih x hx
  have hu := flagsLoop_union pl d.underlying (fun x hx => (hval x hx).1)
  have hv : ValueOf d (flagsLoop pl d.underlying xs 0) := union_valueOf hu fun x hx => (hval x hx).2
  refine ⟨_, _, _, hu, hv, (executeInput_called_def h2.ne_nil h2.found (h2.first1 rfl rfl) h2.live1 h2.def1
    (xs := (xs, ())) ?_).2 ⟨[], .ret (flagsName pl d (flagsLoop pl d.underlying xs 0)), ?_, rfl⟩, rfl, flagText_of hd hu.1⟩
  · simp only [ConvertTo, and_true]
    exact (C17_vector_ok_iff _ rfl v xs).2 hx
  · simp only [cast_ok.2 ⟨rfl, hv⟩, Prog.ofRes, Prog.bind]
    refine .get (.set (.get ?_))
    simp only [hrw]
    exact .ret

/-- **C86.** If some part is neither, nothing changes and the error says so. -/
theorem C86_reject (hdefs : flagsVariableDefs pl d ref = [d0, d1]) (h2 : TwoForms P ops s name d0 d1 g t)
    {v : Value} {named : List Named} (hm : Means s.lexer req ⟨name, [v], named⟩)
    {pre post : List Bytes} {p e : Bytes} {xs : List Int} (hv : v.subvalues = pre ++ p :: post)
    (hx : Forall2 (fun p x => (enumConv pl d).fromString ⟨[p]⟩ = .ok (.ok x)) pre xs)
    (he : (enumConv pl d).fromString ⟨[p]⟩ = .ok (.error e)) (hne : e ≠ []) :
    ∃ out, (nested P ops catching (fuel + 1) depth).exec s req = .ok (s, out) ∧
      answerOf out = some ⟨[cannotConvertBecause (cstr (joined v.subvalues)) (cstr (lit "vector<" ++ d.typeName ++ lit ">"))
        (cstr e)], none⟩ := by
  simp only [flagsVariableDefs, List.cons.injEq, and_true] at hdefs
  obtain ⟨rfl, rfl⟩ := hdefs
  rw [exec_means hm]
  have hc : (vecConv (enumConv pl d)).fromString v = .ok (.error (cannotConvertBecause (cstr (joined v.subvalues))
      (cstr (lit "vector<" ++ d.typeName ++ lit ">")) (cstr e))) :=
    (C17_vector_error_iff _ rfl v _).2 ⟨pre, p, post, xs, e, hv, hx, he, by rw [if_neg hne]; rfl⟩
  have hce : conversionErrors [⟨List Int, vecConv (enumConv pl d)⟩] [v] = [cannotConvertBecause (cstr (joined v.subvalues))
      (cstr (lit "vector<" ++ d.typeName ++ lit ">")) (cstr e)] := by simp [conversionErrors, hc]
  have hr := executeInput_rejected (P := P) (catching := catching) (ne := nested P ops catching fuel (depth + 1))
    (depth := depth) (input := ⟨name, [v], named⟩) h2.ne_nil h2.found (h2.first1 rfl rfl) h2.live1
    (by rw [h2.def1]; exact ⟨⟨_, hc⟩, trivial⟩) (by rw [h2.def1]; simp [hce])
  refine ⟨_, hr, ?_⟩
  simp only [h2.def1, hce]
  rfl

/-- **C86.** Order and repetition of the flags do not matter. -/
theorem C86_order {t : IntType} {xs ys : List Int} {z z' : Int} (h : ∀ x, x ∈ xs ↔ x ∈ ys) (hx : Union pl t xs z)
    (hy : Union pl t ys z') : z = z' := by
  refine union_unique pl t hx ⟨hy.1, fun k => ?_⟩
  rw [hy.2]
  simp only [h]

theorem identChar_ordinary {c : Byte} (h : IdentChar c) (cs : Bool) :
    Ordinary (delims (LexCfg.default cs)) c ∧ ¬ Separator (delims (LexCfg.default cs)) c := by
  have key : ∀ n : Nat, ∀ e : Byte, e.toNat = n → ¬ (65 ≤ n ∧ n ≤ 90) → ¬ (97 ≤ n ∧ n ≤ 122) → ¬ (48 ≤ n ∧ n ≤ 57) → n ≠ 95 →
      n < 128 → c ≠ e := by
    rintro n e hn h1 h2 h3 h4 h5 rfl
    unfold IdentChar at h
    omega
  have hall : ∀ e : Byte, e ∈ (delims (LexCfg.default cs)).spaces ∨ e ∈ (delims (LexCfg.default cs)).parens ∨
      e ∈ (delims (LexCfg.default cs)).quotes ∨ e ∈ (delims (LexCfg.default cs)).seps ∨ e = 61 → c ≠ e := by
    intro e he
    have : ¬ (65 ≤ e.toNat ∧ e.toNat ≤ 90) ∧ ¬ (97 ≤ e.toNat ∧ e.toNat ≤ 122) ∧ ¬ (48 ≤ e.toNat ∧ e.toNat ≤ 57) ∧
        e.toNat ≠ 95 ∧ e.toNat < 128 := by
      have hl : e ∈ (delims (LexCfg.default cs)).spaces ++ (delims (LexCfg.default cs)).parens ++
          (delims (LexCfg.default cs)).quotes ++ (delims (LexCfg.default cs)).seps ++ [61] := by
        simp only [List.mem_append, List.mem_singleton]
        rcases he with h | h | h | h | h <;> simp [h]
      clear he
      revert hl e
      cases cs <;> decide +kernel
    exact key _ e rfl this.1 this.2.1 this.2.2.1 this.2.2.2.1 this.2.2.2.2
  exact ⟨⟨hall 61 (by simp), fun h => hall c (.inl h) rfl, fun h => hall c (.inr (.inl h)) rfl,
    fun h => hall c (.inr (.inr (.inl h))) rfl⟩,
    fun h => h.elim (fun h => hall c (.inl h) rfl) fun h => hall c (.inr (.inr (.inr (.inl h)))) rfl⟩

/-- Words with bars between them, as parts of a compound value. -/
def barParts : List Bytes → List (SPart × Bytes)
  | [] => []
  | [w] => [(.bare w, [])]
  | w :: w' :: ws => (.bare w, lit "|") :: barParts (w' :: ws)

theorem barParts_text : ∀ ws : List Bytes, partsText (barParts ws) = (lit "|").intercalate ws
  | [] => rfl
  | [w] => by simp [barParts, partsText, SPart.text, List.intercalate]
  | w :: w' :: ws => by
    rw [barParts, partsText, barParts_text (w' :: ws), intercalate_cons_cons']
    rfl

theorem barParts_denotes : ∀ ws : List Bytes, (barParts ws).map (·.1.denotes) = ws
  | [] => rfl
  | [w] => rfl
  | w :: w' :: ws => by
    rw [barParts, List.map_cons, barParts_denotes (w' :: ws)]
    rfl

theorem barParts_bare : ∀ {ws : List Bytes}, ∀ x ∈ barParts ws, ∃ w, x.1 = .bare w
  | [], x, h => by simp [barParts] at h
  | [w], x, h => by
    simp only [barParts, List.mem_singleton] at h
    exact ⟨w, by rw [h]⟩
  | w :: w' :: ws, x, h => by
    rw [barParts, List.mem_cons] at h
    rcases h with rfl | h
    · exact ⟨w, rfl⟩
    · exact barParts_bare x h

theorem bar_separator (cs : Bool) : Separator (delims (LexCfg.default cs)) 124 ∧ Ordinary (delims (LexCfg.default cs)) 124 := by
  unfold Separator Ordinary
  cases cs <;> decide +kernel

theorem barParts_wf (cs : Bool) : ∀ {ws : List Bytes}, (∀ w ∈ ws, w ≠ [] ∧ ∀ c ∈ w, IdentChar c) →
    PartsWF (delims (LexCfg.default cs)) (barParts ws) ∧ ∀ c ∈ partsText (barParts ws), Ordinary (delims (LexCfg.default cs)) c
  | [], _ => by simp [barParts, PartsWF, partsText]
  | [w], h => by
    have hw := h w (by simp)
    refine ⟨⟨⟨hw.1, fun c hc => ?_⟩, by simp, by simp, trivial⟩, fun c hc => ?_⟩
    · have := identChar_ordinary (hw.2 c hc) cs
      exact ⟨this.2, this.1.2.2.2, this.1.2.2.1⟩
    · simp only [barParts, partsText, SPart.text, List.append_nil] at hc
      exact (identChar_ordinary (hw.2 c hc) cs).1
  | w :: w' :: ws, h => by
    have hw := h w (by simp)
    have ih := barParts_wf cs (ws := w' :: ws) (fun x hx => h x (List.mem_cons_of_mem _ hx))
    have hbar : ∀ c ∈ lit "|", c = 124 := by decide +kernel
    refine ⟨⟨⟨hw.1, fun c hc => ?_⟩, fun c hc => ?_, fun _ => by decide +kernel, ih.1⟩, fun c hc => ?_⟩
    · have := identChar_ordinary (hw.2 c hc) cs
      exact ⟨this.2, this.1.2.2.2, this.1.2.2.1⟩
    · rw [hbar c hc]
      exact (bar_separator cs).1
    · rw [barParts, partsText] at hc
      simp only [List.mem_append] at hc
      rcases hc with hc | hc | hc
      · exact (identChar_ordinary (hw.2 c hc) cs).1
      · rw [hbar c hc]
        exact (bar_separator cs).2
      · exact ih.2 c hc

/-- A line with a name and words with bars between them. -/
theorem barred_line (cs : Bool) {name : Bytes} {ws : List Bytes} (hn : name ≠ [])
    (hno : ∀ c ∈ name, Ordinary (delims (LexCfg.default cs)) c ∧ ¬ Separator (delims (LexCfg.default cs)) c) (hne : ws ≠ [])
    (hws : ∀ w ∈ ws, w ≠ [] ∧ ∀ c ∈ w, IdentChar c) :
    lexRead (LexCfg.default cs) (name ++ lit " " ++ (lit "|").intercalate ws) = .ok (.ok ⟨name, [⟨ws⟩], []⟩) := by
  have hsp : Blank (delims (LexCfg.default cs)) (lit " ") := by
    unfold Blank
    cases cs <;> decide +kernel
  have line : ∀ v : SValue, v.WF (delims (LexCfg.default cs)) → v.text = (lit "|").intercalate ws → v.denotes = ⟨ws⟩ →
      lexRead (LexCfg.default cs) (name ++ lit " " ++ (lit "|").intercalate ws) = .ok (.ok ⟨name, [⟨ws⟩], []⟩) := by
    intro v hv ht hden
    have := C01_roundtrip cs ⟨[], .bare name, [.positional (lit " ") v], []⟩
      ⟨fun c hc => (by simp at hc), ⟨hn, hno⟩, ⟨name, .bare⟩,
        .positional hsp hv (fun _ _ => by decide +kernel) .nil, fun c hc => (by simp at hc)⟩
    simp only [SCommand.text, SCommand.denotes, SItem.text, List.map_cons, List.map_nil, List.flatten_cons,
      List.flatten_nil, List.append_nil, List.nil_append, SValue.simpleText, positionals, nameds, ht, hden] at this
    rw [List.append_assoc]
    exact this
  match ws, hne, hws with
  | [w], _, hws =>
    have hw := hws w (by simp)
    exact line (.bare w) ⟨hw.1, fun c hc => identChar_ordinary (hw.2 c hc) cs⟩ (by simp [SValue.text, List.intercalate]) rfl
  | w :: w' :: ws, _, hws =>
    have hwf := barParts_wf cs hws
    refine line (.list (barParts (w :: w' :: ws))) ⟨hwf.1, barParts_bare, hwf.2, by simp [barParts], 124, ?_, (bar_separator cs).1⟩
      (barParts_text _) (by simp only [SValue.denotes, barParts_denotes])
    rw [barParts_text, intercalate_cons_cons']
    simp only [List.mem_append]
    exact .inr (.inl (by decide +kernel))

/-- **C86.** What the command shows can be given back to it: it sets the same flags again. This holds if at least one flag is
set and every flag that is set has a name, is at most 128, and has no other constant with the same letters. -/
theorem C86_restore_partial (hd : Declarable pl d) (hdefs : flagsVariableDefs pl d ref = [d0, d1])
    (h2 : TwoForms P ops s name d0 d1 g t) (hrw : ∀ x w, ref.read (ref.write x w) = x) {cs : Bool}
    (hlex : s.lexer = some (lexRead (LexCfg.default cs)))
    (hname : ∀ c ∈ name, Ordinary (delims (LexCfg.default cs)) c ∧ ¬ Separator (delims (LexCfg.default cs)) c)
    {z : Int} (hz : InRange pl d.underlying z) {fs : List (Bytes × Nat)} (hf : FlagsOf d z fs) (hne : fs ≠ [])
    (hsmall : ∀ f ∈ fs, f.2 ≤ 7) (huniq : ∀ f ∈ fs, ∀ c ∈ d.constants, SameWord f.1 c.1 → c.1 = f.1)
    {text : Bytes} (ht : FlagText d z text) :
    ∃ out, (nested P ops catching (fuel + 1) depth).exec s (.line (name ++ lit " " ++ text)) =
        .ok ({ s with user := ref.write z s.user, calls := s.calls ++ [(depth, t.id)] }, out) ∧
      answerOf out = some ⟨[], some text⟩ := by
  have htext : text = barred fs := by
    cases ht with
    | names h => rw [flagsOf_unique h hf]
    | none h => exact absurd ⟨_, hf⟩ h
  subst htext
  have hm : Means s.lexer (.line (name ++ lit " " ++ barred fs)) ⟨name, [⟨fs.map (·.1)⟩], []⟩ := by
    refine ⟨_, hlex, barred_line cs h2.ne_nil hname (by simpa using hne) fun w hw => ?_⟩
    simp only [List.mem_map] at hw
    obtain ⟨⟨n, k⟩, hw, rfl⟩ := hw
    obtain ⟨hi, c, tl, he, _⟩ := hd.ident _ (primary_mem (hf.named n k hw))
    refine ⟨?_, hi⟩
    simp only at he
    simp [he]
  have hx : Forall2 (fun p x => (enumConv pl d).fromString ⟨[p]⟩ = .ok (.ok x)) (fs.map (·.1))
      (fs.map fun f => ((2 ^ f.2 : Nat) : Int)) := by
    have : ∀ l : List (Bytes × Nat), (∀ f ∈ l, f ∈ fs) → Forall2 (fun p x => (enumConv pl d).fromString ⟨[p]⟩ = .ok (.ok x))
        (l.map (·.1)) (l.map fun f => ((2 ^ f.2 : Nat) : Int)) := by
      intro l
      induction l with
      | nil => exact fun _ => .nil
      | cons f l ih =>
        intro hl
        have hmem := hl f (by simp)
        refine .cons ?_ (ih fun g hg => hl g (by simp [hg]))
        have hk := hsmall f hmem
        have hp : 2 ^ f.2 ≤ 2 ^ 7 := Nat.pow_le_pow_right (by omega) hk
        have h1 : (-128 : Int) ≤ (2 ^ f.2 : Nat) := Int.le_trans (by decide) (Int.natCast_nonneg _)
        have h2 : ((2 ^ f.2 : Nat) : Int) ≤ 128 := by omega
        exact C85_names_partial hd (hf.named f.1 f.2 hmem) h1 h2 (huniq f hmem) (sameWord_refl _)
    exact this fs fun _ h => h
  obtain ⟨z', out, text', hu, _, he, ha, htx⟩ := C86_set (P := P) (catching := catching) (fuel := fuel) (depth := depth) hd hdefs
    h2 hrw hm hx
  have hzz : z' = z := by
    refine bit_ext pl d.underlying hu.1 hz fun k _ => ?_
    rw [hu.2, hf.bits]
    constructor
    · rintro ⟨x, hx, hb⟩
      simp only [List.mem_map] at hx
      obtain ⟨⟨n, j⟩, hj, rfl⟩ := hx
      rw [bit_pow] at hb
      subst hb
      exact ⟨n, hj⟩
    · rintro ⟨n, hn⟩
      exact ⟨_, List.mem_map.2 ⟨(n, k), hn, rfl⟩, (bit_pow k k).2 rfl⟩
  subst hzz
  refine ⟨out, he, ?_⟩
  rw [ha]
  cases htx with
  | names h => rw [flagsOf_unique h hf]
  | none h => exact absurd ⟨_, hf⟩ h

/-- **C86, negation.** A flag of 256 is shown by its name, but the name is rejected; the empty set, and a set with a bit
that has no name, are shown as an empty text, which does not restore them. -/
theorem C86_restore_false :
    Demo.execF ["far 257", "far Near|Far"] = .ok ([Demo.fine "Near|Far", Demo.wrong
      ["Unable to convert 'Near Far' to type 'vector<Far>': Unable to convert 'Far' to type 'Far': Possible values are ['Near']"]], 257)
    ∧ Demo.execF ["entity.flags 0", "entity.flags 17", "entity.flags ''"] = .ok ([Demo.fine "", Demo.fine "", Demo.wrong
      ["Unable to convert '' to type 'vector<EntityDebugDrawFlags>': Unable to convert '' to type 'EntityDebugDrawFlags': Possible values are ['DrawBoundingBox', 'DrawOrigin', 'DrawWireframe', 'DrawName']"]], 17) := by
  refine ⟨?_, ?_⟩ <;> decide +kernel

/-- FlagsExample.cpp 85-107. -/
example : Demo.execF ["entity.flags", "entity.flags DrawOrigin|DrawWireframe", "entity.flags DrawOrigin",
      "entity.flags DrawOrigin,DrawWireframe", "entity.flags (DrawOrigin DrawWireframe)",
      "entity.flags (DrawOrigin, DrawWireframe)", "entity.flags drawname;DrawName;1"] =
    .ok ([Demo.fine "DrawBoundingBox|DrawName", Demo.fine "DrawOrigin|DrawWireframe", Demo.fine "DrawOrigin",
      Demo.fine "DrawOrigin|DrawWireframe", Demo.fine "DrawOrigin|DrawWireframe", Demo.fine "DrawOrigin|DrawWireframe",
      Demo.fine "DrawBoundingBox|DrawName"], 9) := by decide +kernel

example : Demo.execF ["entity.flags DrawName|DrawSomethingElse", "entity.flags DrawName DrawSomethingElse"] =
    .ok ([Demo.wrong ["Unable to convert 'DrawName DrawSomethingElse' to type 'vector<EntityDebugDrawFlags>': Unable to convert 'DrawSomethingElse' to type 'EntityDebugDrawFlags': Possible values are ['DrawBoundingBox', 'DrawOrigin', 'DrawWireframe', 'DrawName']"],
      Demo.wrong ["Wrong number of arguments to 'entity.flags': expected 0 or 1, got 2"]], 9) := by decide +kernel

end Coil
