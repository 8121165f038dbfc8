import Verif.Spec.BasicExample
import Verif.Proofs.Answered
import Verif.Proofs.Swarm
import Verif.Proofs.Pool
import Verif.Props.Conv

/-!
# The program of examples/basic: lemmas
-/

namespace Coil
open Spec

variable {pl : Platform} {sz : IntType} {tiny : Nat → Nat → Bool} {nan : Fl → Fl → Bool}

/-! ## Conversions -/

theorem size_reads (hsz : SizeType pl sz) {v : Value} {k : Int} : (intConv pl sz).fromString v = .ok (.ok k) ↔ ∃ t, v = ⟨[t]⟩ ∧ IndexText t k := by
  rw [← index_iff hsz]
  simp only [entityIdConv]
  cases (intConv pl sz).fromString v with
  | ok r => cases r <;> simp
  | ub u => simp
  | diverge => simp

theorem intText_reads {v : Value} {z : Int} : (intConv pl .int).fromString v = .ok (.ok z) ↔ ∃ t, v = ⟨[t]⟩ ∧ IntText pl t z := by
  constructor
  · intro h
    obtain ⟨l⟩ := v
    match l, h with
    | [t], h => exact ⟨t, rfl, (C12_signed_iff (t := .int) trivial).1 h⟩
    | [], h => simp [intConv, arithConv] at h
    | _ :: _ :: _, h => simp [intConv, arithConv] at h
  · rintro ⟨t, rfl, h⟩
    exact (C12_signed_iff (t := .int) trivial).2 h

theorem int_converts {t : IntType} (v : Value) : ∃ r, (intConv pl t).fromString v = .ok r := by
  obtain ⟨l⟩ := v
  match l with
  | [] => exact ⟨_, rfl⟩
  | [s] =>
    simp only [intConv, arithConv]
    cases t.fromString pl s with
    | none => exact ⟨_, rfl⟩
    | some => exact ⟨_, rfl⟩
  | _ :: _ :: _ => exact ⟨_, rfl⟩

theorem string_converts (v : Value) : ∃ r, stringConv.fromString v = .ok r := by
  obtain ⟨l⟩ := v
  match l with
  | [] => exact ⟨_, rfl⟩
  | [_] => exact ⟨_, rfl⟩
  | _ :: _ :: _ => exact ⟨_, rfl⟩

theorem bool_reads {v : Value} {b : Bool} : (boolConv pl).fromString v = .ok (.ok b) ↔ ∃ t, v = ⟨[t]⟩ ∧ BoolWord t b := by
  constructor
  · intro h
    obtain ⟨l⟩ := v
    match l, h with
    | [t], h => exact ⟨t, rfl, C14_bool_accept_iff.1 h⟩
    | [], h => simp [boolConv] at h
    | _ :: _ :: _, h => simp [boolConv] at h
  · rintro ⟨t, rfl, h⟩
    exact C14_bool_accept_iff.2 h

theorem equal_outcome (s w : Bytes) : (∃ r, equalCaseInsensitive pl.charSigned s w = .ok r) ∨ equalCaseInsensitive pl.charSigned s w = .ub .toLowerRange := by
  unfold equalCaseInsensitive
  split
  · exact .inl ⟨_, rfl⟩
  · exact equalLoop_total _ s w

/-- Conversion to `bool` is defined for everything but odd words. -/
theorem bool_converts (v : Value) : (∃ r, (boolConv pl).fromString v = .ok r) ↔ ¬ (pl.charSigned = true ∧ ∃ t, v = ⟨[t]⟩ ∧ OddWord t) := by
  obtain ⟨l⟩ := v
  match l with
  | [] => exact ⟨fun _ ⟨_, t, h, _⟩ => (by cases h), fun _ => ⟨_, rfl⟩⟩
  | _ :: _ :: _ => exact ⟨fun _ ⟨_, t, h, _⟩ => (by cases h), fun _ => ⟨_, rfl⟩⟩
  | [s] =>
    have key : (boolConv pl).fromString ⟨[s]⟩ = .ub .toLowerRange ↔ pl.charSigned = true ∧ OddWord s := C14_bool_ub_iff
    have out : (∃ r, (boolConv pl).fromString ⟨[s]⟩ = .ok r) ∨ (boolConv pl).fromString ⟨[s]⟩ = .ub .toLowerRange := by
      simp only [boolConv]
      split
      · exact .inl ⟨_, rfl⟩
      split
      · exact .inl ⟨_, rfl⟩
      rcases equal_outcome (pl := pl) s (lit "true") with ⟨r, h⟩ | h
      · rw [h]
        cases r with
        | true => exact .inl ⟨_, rfl⟩
        | false =>
          rcases equal_outcome (pl := pl) s (lit "false") with ⟨r2, h2⟩ | h2
          · rw [h2]
            cases r2 with
            | true => exact .inl ⟨_, rfl⟩
            | false => exact .inl ⟨_, rfl⟩
          · rw [h2]
            exact .inr rfl
      · rw [h]
        exact .inr rfl
    constructor
    · rintro ⟨r, hr⟩ ⟨h1, t, ht, h2⟩
      cases ht
      rw [key.2 ⟨h1, h2⟩] at hr
      cases hr
    · intro h
      rcases out with h1 | h1
      · exact h1
      · obtain ⟨h2, h3⟩ := key.1 h1
        exact absurd ⟨h2, s, rfl, h3⟩ h

/-! ## Bodies -/

theorem says_log {W C D R : Type} {x : D} {l : List Named} {past es : List CtxEvent} {t : Bytes} {k : Prog W C D R} {w w' : W} {e : End R}
    (h : Says x l past (.log t k) w es e w') : ∃ es', es = .log t :: es' ∧ Says x l (past ++ [.log t]) k w es' e w' := by
  cases h with | log h => exact ⟨_, rfl, h⟩

theorem outputOf_log (t : Bytes) (es : List CtxEvent) : outputOf (.log t :: es) = t ++ outputOf es := rfl

theorem says_ofRes {W C D R : Type} {x : D} {l : List Named} {past es : List CtxEvent} {r : Res R} {w w' : W} {e : End R}
    (h : Says (W := W) (C := C) x l past (.ofRes r) w es e w') : ∃ a, r = .ok a ∧ es = [] ∧ e = .ret a ∧ w' = w := by
  cases r with
  | ok a => obtain ⟨h1, h2, h3⟩ := says_ret h; exact ⟨a, rfl, h1, h2, h3⟩
  | ub => cases h
  | diverge => cases h

theorem says_repeat {val : Bytes} {l : List Named} {n : Nat} {past es : List CtxEvent} {w w' : BasicWorld} {e : End Unit}
    (h : Says () l past (repeatLog val n) w es e w') : e = .ret () ∧ w' = w ∧ errorsOf es = [] ∧ outputOf es = (List.replicate n val).flatten := by
  induction n generalizing past es with
  | zero => obtain ⟨rfl, rfl, rfl⟩ := says_ret h; exact ⟨rfl, rfl, rfl, rfl⟩
  | succ n ih =>
    obtain ⟨es', rfl, h'⟩ := says_log h
    obtain ⟨h1, h2, h3, h4⟩ := ih h'
    exact ⟨h1, h2, h3, by rw [outputOf_log, h4, List.replicate_succ, List.flatten_cons]⟩

theorem repeat_says (val : Bytes) (l : List Named) (w : BasicWorld) : ∀ (n : Nat) (past : List CtxEvent),
    ∃ es, Says () l past (repeatLog val n) w es (.ret ()) w
  | 0, _ => ⟨_, .ret⟩
  | n + 1, past => by
    obtain ⟨es, h⟩ := repeat_says val l w n (past ++ [.log val])
    exact ⟨_, .log h⟩

theorem repeat_quiet (val : Bytes) : ∀ n, Quiet (repeatLog val n)
  | 0 => .ret
  | n + 1 => .log (repeat_quiet val n)

theorem ofRes_quiet {W C D R : Type} (r : Res R) : Quiet (Prog.ofRes r : Prog W C D R) := by
  cases r with
  | ok => exact .ret
  | ub => exact .ub
  | diverge => exact .diverge

theorem basic_quiet : AllQuiet (basicFunctions pl sz tiny nan) := by
  intro c xs
  cases c with
  | hello => exact .get fun _ => .set .ret
  | helloContext => exact .log (.log (.logline (.log (.log (.logline .ret)))))
  | repeated => exact repeat_quiet _ _
  | quoted => exact .logline .ret
  | invert | add | concat | speak => exact .ret
  | scale1 | scale2 => exact .get fun _ => ofRes_quiet _

/-! ## The table -/

theorem basic_hello : Table.functions basicTable (lit "hello") = some [(.hello, ())] := by decide +kernel
theorem basic_greeting : Table.functions basicTable (lit "hello_with_context") = some [(.helloContext, ())] := by decide +kernel
theorem basic_repeated : Table.functions basicTable (lit "print_repeated") = some [(.repeated, ())] := by decide +kernel
theorem basic_quoted : Table.functions basicTable (lit "print_quoted") = some [(.quoted, ())] := by decide +kernel
theorem basic_invert : Table.functions basicTable (lit "invert") = some [(.invert, ())] := by decide +kernel
theorem basic_add : Table.functions basicTable (lit "add") = some [(.add, ())] := by decide +kernel
theorem basic_concat : Table.functions basicTable (lit "concat") = some [(.concat, ())] := by decide +kernel

theorem basic_speak {n who : Bytes} (h : (n, who) ∈ speakers) : ∃ s : Speaker, Table.functions basicTable n = some [(.speak s, ())] := by
  have all : ∀ p ∈ speakers, Table.functions basicTable p.1 = some [(.speak .plain, ())] ∨ Table.functions basicTable p.1 = some [(.speak .lambda, ())] ∨
      Table.functions basicTable p.1 = some [(.speak .functor, ())] ∨ Table.functions basicTable p.1 = some [(.speak .stdFunction, ())] := by decide +kernel
  rcases all _ h with h | h | h | h
  · exact ⟨_, h⟩
  · exact ⟨_, h⟩
  · exact ⟨_, h⟩
  · exact ⟨_, h⟩

theorem basic_scale {n : Bytes} {m : Int} (h : (n, m) ∈ scalers) :
    Table.functions basicTable n = some [(.scale1, ())] ∧ m = 2 ∨ Table.functions basicTable n = some [(.scale2, ())] ∧ m = 10 := by
  have all : ∀ p ∈ scalers, Table.functions basicTable p.1 = some [(.scale1, ())] ∧ p.2 = 2 ∨ Table.functions basicTable p.1 = some [(.scale2, ())] ∧ p.2 = 10 := by
    decide +kernel
  exact all _ h

theorem speak_intro : ∀ p ∈ ([(lit "plain_function", .plain), (lit "lambda", .lambda), (lit "custom_functor", .functor),
    (lit "std_function", .stdFunction)] : List (Bytes × Speaker)), ∃ who, (p.1, who) ∈ speakers ∧ p.2.intro = lit "I am a " ++ who ++ lit ": " := by
  intro p hp
  simp only [List.mem_cons, List.not_mem_nil, or_false] at hp
  rcases hp with rfl | rfl | rfl | rfl
  · exact ⟨lit "function", by decide +kernel, by decide +kernel⟩
  · exact ⟨lit "lambda", by decide +kernel, by decide +kernel⟩
  · exact ⟨lit "custom functor", by decide +kernel, by decide +kernel⟩
  · exact ⟨lit "std::function", by decide +kernel, by decide +kernel⟩

theorem int_range {z : Int} : InRange pl .int z ↔ -2147483648 ≤ z ∧ z ≤ 2147483647 := by
  unfold InRange
  simp only [lo, hi]

theorem says_scale {l : List Named} {x : Int} {f : BasicWorld → Int} {past es : List CtxEvent} {w w' : BasicWorld} {e : End Int}
    (h : Says (C := BasicCode) () l past (.get fun w => .ofRes (intMul x (f w))) w es e w') :
    InRange pl .int (f w * x) ∧ es = [] ∧ e = .ret (f w * x) ∧ w' = w := by
  have h0 := says_get h
  obtain ⟨a, h1, h2, h3, h4⟩ := says_ofRes h0
  unfold intMul at h1
  rw [Int.mul_comm] at h1
  split at h1
  · rename_i hr
    cases h1
    exact ⟨int_range.2 hr, h2, h3, h4⟩
  · cases h1

theorem scale_says (pl : Platform) {l : List Named} {x : Int} {f : BasicWorld → Int} {w : BasicWorld} (h : InRange pl .int (f w * x)) :
    ∃ es e w', Says (C := BasicCode) () l [] (.get fun w => .ofRes (intMul x (f w))) w es e w' := by
  refine ⟨[], .ret (f w * x), w, .get ?_⟩
  have : intMul x (f w) = .ok (f w * x) := by
    unfold intMul
    rw [Int.mul_comm, if_pos (int_range.1 h)]
  rw [this]
  exact .ret

theorem greeting_eq : lit "log: no automatic" ++ (lit " line break\n" ++ (lit "logline: line break is added automatically" ++ lit "\n" ++
    (lit "logf: no automatic" ++ (lit " line break, but formatted\n" ++ (lit "loglinef: automatic line break and formatted" ++ lit "\n" ++ []))))) =
      greetingText := by
  decide +kernel

theorem quote_text : lit "'" = [39] := by decide +kernel

theorem basic_telltale (hsz : SizeType pl sz) : Telltale (basicFunctions pl sz tiny nan) basicTable (BasicTold pl tiny nan) BasicKeeps where
  known := by
    intro h h' i r o t
    cases t with
    | hello => exact ⟨by dsimp only; decide +kernel, _, _, basic_hello, ⟨[], [], rfl, rfl, by simp⟩, rfl⟩
    | greeting => exact ⟨by dsimp only; decide +kernel, _, _, basic_greeting, ⟨[], [], rfl, rfl, by simp⟩, rfl⟩
    | repeated hk =>
      refine ⟨by dsimp only; decide +kernel, _, _, basic_repeated, ⟨[], [], rfl, rfl, by simp⟩, ?_⟩
      simp only [basicFunctions, conversionErrors, (size_reads hsz).2 ⟨_, rfl, hk⟩]
      rfl
    | quoted => exact ⟨by dsimp only; decide +kernel, _, _, basic_quoted, ⟨[], [], rfl, rfl, by simp⟩, rfl⟩
    | invert hb =>
      refine ⟨by dsimp only; decide +kernel, _, _, basic_invert, ⟨[], [], rfl, rfl, by simp⟩, ?_⟩
      simp only [basicFunctions, conversionErrors, bool_reads.2 ⟨_, rfl, hb⟩]
    | add hx hy =>
      refine ⟨by dsimp only; decide +kernel, _, _, basic_add, ⟨[], [], rfl, rfl, by simp⟩, ?_⟩
      unfold ReadsFloat at hx hy
      simp only [basicFunctions, addDef, conversionErrors, hx, hy]
    | concat => exact ⟨by dsimp only; decide +kernel, _, _, basic_concat, ⟨[], [], rfl, rfl, by simp⟩, rfl⟩
    | speak hm hz =>
      obtain ⟨s, hs⟩ := basic_speak hm
      have hne : ∀ p ∈ speakers, p.1 ≠ [] := by decide +kernel
      refine ⟨hne _ hm, _, _, hs, ⟨[], [], rfl, rfl, by simp⟩, ?_⟩
      simp only [basicFunctions, conversionErrors, intText_reads.2 ⟨_, rfl, hz⟩]
    | scale hm hz =>
      have hne : ∀ p ∈ scalers, p.1 ≠ [] := by decide +kernel
      rcases basic_scale hm with ⟨hs, _⟩ | ⟨hs, _⟩
      · refine ⟨hne _ hm, _, _, hs, ⟨[], [], rfl, rfl, by simp⟩, ?_⟩
        simp only [basicFunctions, scaleDef, conversionErrors, intText_reads.2 ⟨_, rfl, hz⟩]
      · refine ⟨hne _ hm, _, _, hs, ⟨[], [], rfl, rfl, by simp⟩, ?_⟩
        simp only [basicFunctions, scaleDef, conversionErrors, intText_reads.2 ⟨_, rfl, hz⟩]
  does := by
    rintro w w' h ⟨nm, args, named⟩ fs ⟨c, u⟩ xs es e ⟨k1, k2, k3⟩ hfs hf hx hs
    have hmem := firstTaking_member hf
    have hm := functions_mem hfs
    have spoken : ∀ {s : Speaker}, c = .speak s → (nm, s) ∈ ([(lit "plain_function", .plain), (lit "lambda", .lambda), (lit "custom_functor", .functor),
        (lit "std_function", .stdFunction)] : List (Bytes × Speaker)) → ∃ r h', e = .ret r ∧ errorsOf es = [] ∧ BasicKeeps w' h' ∧
          BasicTold pl tiny nan h ⟨nm, args, named⟩ h' ((basicFunctions pl sz tiny nan c).print.map (fun p => p r)) (outputOf es) := by
      intro s hc hn
      subst hc
      obtain ⟨who, h1, h2⟩ := speak_intro _ hn
      dsimp only at hx hs h1 h2
      match args, hx with
      | [a], hx =>
        obtain ⟨x, _⟩ := xs
        obtain ⟨t, rfl, ht⟩ := intText_reads.1 hx.1
        obtain ⟨rfl, rfl, rfl⟩ := says_ret hs
        refine ⟨_, h, rfl, rfl, ⟨k1, k2, k3⟩, ?_⟩
        have := BasicTold.speak (tiny := tiny) (nan := nan) (h := h) (named := named) h1 ht
        rw [← h2] at this
        exact this
    simp only [basicTable, List.mem_cons, List.not_mem_nil, or_false, Prod.mk.injEq] at hm
    dsimp only at hf hx hs
    rcases hm with ⟨rfl, rfl⟩ | ⟨rfl, rfl⟩ | ⟨rfl, rfl⟩ | ⟨rfl, rfl⟩ | ⟨rfl, rfl⟩ | ⟨rfl, rfl⟩ | ⟨rfl, rfl⟩ | ⟨rfl, rfl⟩ | ⟨rfl, rfl⟩ | ⟨rfl, rfl⟩ | ⟨rfl, rfl⟩ |
        ⟨rfl, rfl⟩ | ⟨rfl, rfl⟩ <;>
      simp only [List.mem_cons, List.not_mem_nil, or_false, Prod.mk.injEq] at hmem
    · obtain ⟨rfl, _⟩ := hmem
      match args, hx with
      | [], hx =>
        have hs1 := says_get hs
        have hs2 := says_set hs1
        obtain ⟨rfl, rfl, rfl⟩ := says_ret hs2
        refine ⟨(), h + 1, rfl, rfl, ⟨?_, k2, k3⟩, .hello⟩
        rw [List.replicate_succ', List.flatten_append, k1]
        simp
    · obtain ⟨rfl, _⟩ := hmem
      match args, hx with
      | [], hx =>
        obtain ⟨es1, rfl, hs1⟩ := says_log hs
        obtain ⟨es2, rfl, hs2⟩ := says_log hs1
        obtain ⟨es3, rfl, hs3⟩ := says_logline hs2
        obtain ⟨es4, rfl, hs4⟩ := says_log hs3
        obtain ⟨es5, rfl, hs5⟩ := says_log hs4
        obtain ⟨es6, rfl, hs6⟩ := says_logline hs5
        obtain ⟨rfl, rfl, rfl⟩ := says_ret hs6
        refine ⟨(), h, rfl, rfl, ⟨k1, k2, k3⟩, ?_⟩
        rw [outputOf_log, outputOf_log, outputOf_logline, outputOf_log, outputOf_log, outputOf_logline]
        have : outputOf ([] : List CtxEvent) = [] := rfl
        rw [this, greeting_eq]
        exact .greeting
    · obtain ⟨rfl, _⟩ := hmem
      match args, hx with
      | [a, b], hx =>
        obtain ⟨x, y, _⟩ := xs
        have hv := string_reads.1 hx.1
        subst hv
        obtain ⟨t, rfl, ht⟩ := (size_reads hsz).1 hx.2.1
        obtain ⟨rfl, rfl, h3, h4⟩ := says_repeat hs
        refine ⟨(), h, rfl, h3, ⟨k1, k2, k3⟩, ?_⟩
        rw [h4]
        exact .repeated ht
    · obtain ⟨rfl, _⟩ := hmem
      match args, hx with
      | [a], hx =>
        obtain ⟨x, _⟩ := xs
        have hv := string_reads.1 hx.1
        subst hv
        obtain ⟨es1, rfl, hs1⟩ := says_logline hs
        obtain ⟨rfl, rfl, rfl⟩ := says_ret hs1
        refine ⟨(), h, rfl, rfl, ⟨k1, k2, k3⟩, ?_⟩
        rw [outputOf_logline, newline_text, quote_text]
        have := BasicTold.quoted (pl := pl) (tiny := tiny) (nan := nan) (h := h) (s := x) (named := named)
        have e : [39] ++ cstr x ++ [39] ++ [10] ++ outputOf [] = [39] ++ upToNul x ++ [39, 10] := by
          have : outputOf ([] : List CtxEvent) = [] := rfl
          rw [this]
          simp [cstr, upToNul]
        show BasicTold pl tiny nan h _ h none ([39] ++ cstr x ++ [39] ++ [10] ++ outputOf [])
        rw [e]
        exact this
    · obtain ⟨rfl, _⟩ := hmem
      match args, hx with
      | [a], hx =>
        obtain ⟨x, _⟩ := xs
        obtain ⟨t, rfl, ht⟩ := bool_reads.1 hx.1
        obtain ⟨rfl, rfl, rfl⟩ := says_ret hs
        refine ⟨_, h, rfl, rfl, ⟨k1, k2, k3⟩, ?_⟩
        have := BasicTold.invert (pl := pl) (tiny := tiny) (nan := nan) (h := h) (named := named) ht
        cases x with
        | true => exact this
        | false => exact this
    · obtain ⟨rfl, _⟩ := hmem
      match args, hx with
      | [a, b], hx =>
        obtain ⟨x, y, _⟩ := xs
        obtain ⟨t, rfl, ht⟩ := single_reads hx.1
        obtain ⟨t', rfl, ht'⟩ := single_reads hx.2.1
        obtain ⟨rfl, rfl, rfl⟩ := says_ret hs
        exact ⟨_, h, rfl, rfl, ⟨k1, k2, k3⟩, .add ht ht'⟩
    · obtain ⟨rfl, _⟩ := hmem
      match args, hx with
      | [a, b], hx =>
        obtain ⟨x, y, _⟩ := xs
        have hv := string_reads.1 hx.1
        subst hv
        have hv := string_reads.1 hx.2.1
        subst hv
        obtain ⟨rfl, rfl, rfl⟩ := says_ret hs
        exact ⟨_, h, rfl, rfl, ⟨k1, k2, k3⟩, .concat⟩
    · exact spoken hmem.1 (by simp)
    · exact spoken hmem.1 (by simp)
    · exact spoken hmem.1 (by simp)
    · exact spoken hmem.1 (by simp)
    · obtain ⟨rfl, _⟩ := hmem
      match args, hx with
      | [a], hx =>
        obtain ⟨x, _⟩ := xs
        obtain ⟨t, rfl, ht⟩ := intText_reads.1 hx.1
        obtain ⟨hr, rfl, rfl, rfl⟩ := says_scale (pl := pl) hs
        rw [k2] at hr
        refine ⟨_, h, rfl, rfl, ⟨k1, k2, k3⟩, ?_⟩
        show BasicTold pl tiny nan h _ h (some (intDec (w'.scaler1 * x))) []
        rw [k2]
        exact .scale (by simp [scalers]) ht hr
    · obtain ⟨rfl, _⟩ := hmem
      match args, hx with
      | [a], hx =>
        obtain ⟨x, _⟩ := xs
        obtain ⟨t, rfl, ht⟩ := intText_reads.1 hx.1
        obtain ⟨hr, rfl, rfl, rfl⟩ := says_scale (pl := pl) hs
        rw [k3] at hr
        refine ⟨_, h, rfl, rfl, ⟨k1, k2, k3⟩, ?_⟩
        show BasicTold pl tiny nan h _ h (some (intDec (w'.scaler2 * x))) []
        rw [k3]
        exact .scale (by simp [scalers]) ht hr

/-! ## When the program answers -/

theorem basic_steady : Steady (basicFunctions pl sz tiny nan) basicTable (fun w => w.scaler1 = 2 ∧ w.scaler2 = 10) where
  same := by
    rintro _ ⟨c, u⟩ xs l w v es e w' _ _ ⟨h1, h2⟩ ⟨h3, h4⟩ hs
    dsimp only at hs ⊢
    cases c with
    | hello => exact ⟨_, _, _, .get (.set .ret)⟩
    | helloContext => exact ⟨_, _, _, .log (.log (.logline (.log (.log (.logline .ret)))))⟩
    | repeated => obtain ⟨es, h⟩ := repeat_says xs.1 l v xs.2.1.toNat []; exact ⟨_, _, _, h⟩
    | quoted => exact ⟨_, _, _, .logline .ret⟩
    | invert | add | concat | speak => exact ⟨_, _, _, .ret⟩
    | scale1 =>
      obtain ⟨hr, _⟩ := says_scale (pl := pl) hs
      exact scale_says pl (f := fun w => w.scaler1) (by dsimp only at hr ⊢; rw [h3, ← h1]; exact hr)
    | scale2 =>
      obtain ⟨hr, _⟩ := says_scale (pl := pl) hs
      exact scale_says pl (f := fun w => w.scaler2) (by dsimp only at hr ⊢; rw [h4, ← h2]; exact hr)
  stays := by
    rintro _ ⟨c, u⟩ xs l w es e w' _ _ hg hs
    dsimp only at hs
    cases c with
    | hello =>
      have hs1 := says_get hs
      have hs2 := says_set hs1
      obtain ⟨_, _, rfl⟩ := says_ret hs2
      exact hg
    | helloContext =>
      obtain ⟨_, _, hs1⟩ := says_log hs
      obtain ⟨_, _, hs2⟩ := says_log hs1
      obtain ⟨_, _, hs3⟩ := says_logline hs2
      obtain ⟨_, _, hs4⟩ := says_log hs3
      obtain ⟨_, _, hs5⟩ := says_log hs4
      obtain ⟨_, _, hs6⟩ := says_logline hs5
      obtain ⟨_, _, rfl⟩ := says_ret hs6
      exact hg
    | repeated => obtain ⟨_, rfl, _⟩ := says_repeat hs; exact hg
    | quoted =>
      obtain ⟨_, _, hs1⟩ := says_logline hs
      obtain ⟨_, _, rfl⟩ := says_ret hs1
      exact hg
    | invert | add | concat | speak => obtain ⟨_, _, rfl⟩ := says_ret hs; exact hg
    | scale1 | scale2 => obtain ⟨_, _, _, rfl⟩ := says_scale (pl := pl) hs; exact hg

theorem firstTaking_single {W C D : Type} {P : C → FunctorDef W C D} {n : Nat} {f : C × D} (h : (P f.1).params.length = n) : FirstTaking P n [f] f :=
  ⟨[], [], rfl, h, by simp⟩

theorem scale_trouble {f : BasicWorld → Int} {m : Int} {i : Input} (hm : (i.name, m) ∈ scalers) (hf : ∀ w : BasicWorld, w.scaler1 = 2 → w.scaler2 = 10 → f w = m)
    (hn : ¬ BasicTrouble pl i) {x : Int} {a : Value} (ha : i.arguments = [a]) (hx : (intConv pl .int).fromString a = .ok (.ok x)) {w : BasicWorld}
    (hw : w.scaler1 = 2 ∧ w.scaler2 = 10) : InRange pl .int (f w * x) := by
  obtain ⟨t, rfl, ht⟩ := intText_reads.1 hx
  rw [hf w hw.1 hw.2]
  apply Classical.byContradiction
  intro hr
  exact hn (.inl ⟨m, t, x, hm, ha, ht, hr⟩)

theorem basic_answerable (i : Input) :
    Answerable (basicFunctions pl sz tiny nan) basicTable (fun w => w.scaler1 = 2 ∧ w.scaler2 = 10) i ↔ ¬ BasicTrouble pl i := by
  constructor
  · rintro h (⟨m, t, z, hm, ha, hz, hr⟩ | ⟨hn, hc, t, ha, ho⟩)
    · have hne : ∀ p ∈ scalers, p.1 ≠ [] := by decide +kernel
      apply hr
      rcases basic_scale hm with ⟨hs, rfl⟩ | ⟨hs, rfl⟩
      · obtain ⟨_, h2⟩ := h _ (.scale1, ()) (hne _ hm) hs (by rw [ha]; exact firstTaking_single rfl)
        obtain ⟨es, e, w', h3⟩ := h2 (z, ()) (by rw [ha]; exact ⟨intText_reads.2 ⟨t, rfl, hz⟩, trivial⟩) ⟨[], 2, 10⟩ ⟨rfl, rfl⟩
        exact (says_scale (pl := pl) (f := fun w => w.scaler1) h3).1
      · obtain ⟨_, h2⟩ := h _ (.scale2, ()) (hne _ hm) hs (by rw [ha]; exact firstTaking_single rfl)
        obtain ⟨es, e, w', h3⟩ := h2 (z, ()) (by rw [ha]; exact ⟨intText_reads.2 ⟨t, rfl, hz⟩, trivial⟩) ⟨[], 2, 10⟩ ⟨rfl, rfl⟩
        exact (says_scale (pl := pl) (f := fun w => w.scaler2) h3).1
    · obtain ⟨h1, _⟩ := h _ (.invert, ()) (by rw [hn]; decide +kernel) (by rw [hn]; exact basic_invert) (by rw [ha]; exact firstTaking_single rfl)
      rw [ha] at h1
      exact (bool_converts ⟨[t]⟩).1 h1.1 ⟨hc, t, rfl, ho⟩
  · rintro hn fs ⟨c, u⟩ _ hfs hf
    have hmem := firstTaking_member hf
    have hlen := firstTaking_length hf
    have hm := functions_mem hfs
    obtain ⟨nm, args, named⟩ := i
    dsimp only at hlen hm ⊢
    cases c with
    | hello =>
      match args, hlen with
      | [], _ => exact ⟨trivial, fun xs _ w _ => ⟨_, _, _, .get (.set .ret)⟩⟩
    | helloContext =>
      match args, hlen with
      | [], _ => exact ⟨trivial, fun xs _ w _ => ⟨_, _, _, .log (.log (.logline (.log (.log (.logline .ret)))))⟩⟩
    | repeated =>
      match args, hlen with
      | [a, b], _ =>
        refine ⟨⟨string_converts a, int_converts b, trivial⟩, fun xs _ w _ => ?_⟩
        obtain ⟨es, h⟩ := repeat_says xs.1 named w xs.2.1.toNat []
        exact ⟨_, _, _, h⟩
    | quoted =>
      match args, hlen with
      | [a], _ => exact ⟨⟨string_converts a, trivial⟩, fun xs _ w _ => ⟨_, _, _, .logline .ret⟩⟩
    | invert =>
      match args, hlen with
      | [a], _ =>
        refine ⟨⟨(bool_converts a).2 ?_, trivial⟩, fun xs _ w _ => ⟨_, _, _, .ret⟩⟩
        rintro ⟨h1, t, rfl, h2⟩
        refine hn (.inr ⟨?_, h1, t, rfl, h2⟩)
        simp only [basicTable, List.mem_cons, List.not_mem_nil, or_false, Prod.mk.injEq] at hm
        rcases hm with ⟨rfl, rfl⟩ | ⟨rfl, rfl⟩ | ⟨rfl, rfl⟩ | ⟨rfl, rfl⟩ | ⟨rfl, rfl⟩ | ⟨rfl, rfl⟩ | ⟨rfl, rfl⟩ | ⟨rfl, rfl⟩ | ⟨rfl, rfl⟩ | ⟨rfl, rfl⟩ |
            ⟨rfl, rfl⟩ | ⟨rfl, rfl⟩ | ⟨rfl, rfl⟩ <;>
          first | rfl | simp at hmem
    | add =>
      match args, hlen with
      | [a, b], _ => exact ⟨⟨single_defined a, single_defined b, trivial⟩, fun xs _ w _ => ⟨_, _, _, .ret⟩⟩
    | concat =>
      match args, hlen with
      | [a, b], _ => exact ⟨⟨string_converts a, string_converts b, trivial⟩, fun xs _ w _ => ⟨_, _, _, .ret⟩⟩
    | speak who =>
      match args, hlen with
      | [a], _ => exact ⟨⟨int_converts a, trivial⟩, fun xs _ w _ => ⟨_, _, _, .ret⟩⟩
    | scale1 =>
      match args, hlen with
      | [a], _ =>
        refine ⟨⟨int_converts a, trivial⟩, fun xs hx w hw => scale_says pl (f := fun w => w.scaler1) (scale_trouble (m := 2) ?_ (fun w h _ => h) hn rfl hx.1 hw)⟩
        simp only [basicTable, List.mem_cons, List.not_mem_nil, or_false, Prod.mk.injEq] at hm
        rcases hm with ⟨rfl, rfl⟩ | ⟨rfl, rfl⟩ | ⟨rfl, rfl⟩ | ⟨rfl, rfl⟩ | ⟨rfl, rfl⟩ | ⟨rfl, rfl⟩ | ⟨rfl, rfl⟩ | ⟨rfl, rfl⟩ | ⟨rfl, rfl⟩ | ⟨rfl, rfl⟩ |
            ⟨rfl, rfl⟩ | ⟨rfl, rfl⟩ | ⟨rfl, rfl⟩ <;>
          first | (simp at hmem; done) | simp [scalers]
    | scale2 =>
      match args, hlen with
      | [a], _ =>
        refine ⟨⟨int_converts a, trivial⟩, fun xs hx w hw => scale_says pl (f := fun w => w.scaler2) (scale_trouble (m := 10) ?_ (fun w _ h => h) hn rfl hx.1 hw)⟩
        simp only [basicTable, List.mem_cons, List.not_mem_nil, or_false, Prod.mk.injEq] at hm
        rcases hm with ⟨rfl, rfl⟩ | ⟨rfl, rfl⟩ | ⟨rfl, rfl⟩ | ⟨rfl, rfl⟩ | ⟨rfl, rfl⟩ | ⟨rfl, rfl⟩ | ⟨rfl, rfl⟩ | ⟨rfl, rfl⟩ | ⟨rfl, rfl⟩ | ⟨rfl, rfl⟩ |
            ⟨rfl, rfl⟩ | ⟨rfl, rfl⟩ | ⟨rfl, rfl⟩ <;>
          first | (simp at hmem; done) | simp [scalers]

end Coil
