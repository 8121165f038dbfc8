import Verif.Spec.Kept
import Verif.Proofs.ViewsLift

/-! # Keeping views: the sessions and the examples -/

namespace Coil
namespace Vw
open Spec

variable {S W W' C D R R' R₁ R₂ : Type} {I : Mem → W → W' → Prop}

theorem Spec.Both.mono {α β : Type} {Q Q' : α → β → Prop} (h : ∀ a b, Q a b → Q' a b) {l : List α} {l' : List β} (hl : Both Q l l') : Both Q' l l' := by
  induction hl with
  | nil => exact .nil
  | cons h1 _ ih => exact .cons (h _ _ h1) ih

theorem Spec.Both.append {α β : Type} {Q : α → β → Prop} {l k : List α} {l' k' : List β} (hl : Both Q l l') (hk : Both Q k k') :
    Both Q (l ++ k) (l' ++ k') := by
  induction hl with
  | nil => exact hk
  | cons h1 _ ih => exact .cons h1 ih

theorem Spec.Both.length {α β : Type} {Q : α → β → Prop} {l : List α} {l' : List β} (hl : Both Q l l') : l.length = l'.length := by
  induction hl with
  | nil => rfl
  | cons _ _ ih => simp [ih]

theorem Spec.Both.get {α β : Type} {Q : α → β → Prop} {l : List α} {l' : List β} (hl : Both Q l l') (i : Nat) :
    (l[i]? = none ∧ l'[i]? = none) ∨ ∃ a b, l[i]? = some a ∧ l'[i]? = some b ∧ Q a b := by
  induction hl generalizing i with
  | nil => exact .inl ⟨rfl, rfl⟩
  | cons h1 _ ih =>
    cases i with
    | zero => exact .inr ⟨_, _, rfl, rfl, h1⟩
    | succ i => simpa using ih i

/-! ## Sessions -/

theorem outIs_keeps {m m' : Mem} (hk : Keeps m m') {o : VOut} {o' : ExecOut} (h : OutIs m o o') : OutIs m' o o' := by
  cases h with
  | exn e => exact .exn e
  | ok h => exact .ok ⟨readInput_keeps hk h.1, h.2⟩

theorem outIs_shown {m : Mem} {o : VOut} {o' : ExecOut} (h : OutIs m o o') : o.shown = shownText o' := by
  cases h with
  | exn e => rfl
  | ok h =>
    obtain ⟨_, h1, h2, h3⟩ := h
    simp only [VOut.shown, shownText, h1, h2, h3]

variable {V : C → VDef W C D} {P : C → FunctorDef W' C D} {ops : RegOps S C D} {catching : Bool} {lex : VLexer} {fuel : Nat}

theorem inPlace_sim (hI : Lasting I) (hP : ∀ c, DefUnder I (V c) (P c)) (ts : List Bytes) :
    ∀ (m : Mem) (s : Sys S W C D) (s' : Sys S W' C D), SysIs I m s s' → s'.lexer = some (textLexer lex) →
      Follows (fun (a : VSys S W C D × List VOut) b => SysIs I a.1.mem a.1.sys b.1 ∧ Keeps m a.1.mem ∧ Both (OutIs a.1.mem) a.2 b.2)
        (inPlace lex V ops catching fuel ⟨m, s⟩ ts) (executeAll P ops catching fuel s' (ts.map .line)) := by
  induction ts with
  | nil => exact fun m s s' hs _ => .ok ⟨hs, .refl _, .nil⟩
  | cons t ts ih =>
    intro m s s' hs hl
    have hk : Keeps m (m.make t) := keeps_make (.refl _) t
    refine .bind ((nested_sim (ops := ops) (catching := catching) (lex := lex) hI hP fuel 0).1 (m.make t) s s' _ t (hs.keeps hI hk) hl
      (read_make m t)) ?_
    rintro ⟨⟨m1, s1⟩, o⟩ ⟨s1', o'⟩ ⟨h1, h2, h3, h4⟩
    refine .bind (ih m1 s1 s1' h1 h2) ?_
    rintro ⟨⟨m2, s2⟩, os⟩ ⟨s2', os'⟩ ⟨h5, h6, h7⟩
    exact .ok ⟨h5, hk.trans (h3.trans h6), .cons (outIs_keeps h6 h4) h7⟩

theorem eachLine_sim {base : Mem} (hI : Lasting I) (hL : LooksAt base I) (hP : ∀ c, DefUnder I (V c) (P c)) (ts : List Bytes) :
    ∀ (m : Mem) (s : Sys S W C D) (s' : Sys S W' C D), Keeps base m → SysIs I m s s' → s'.lexer = some (textLexer lex) →
      Follows (fun (a : VSys S W C D × List ShownOut) b => SysIs I a.1.mem a.1.sys b.1 ∧ Keeps base a.1.mem ∧ a.2 = b.2.map shownText)
        (eachLine lex V ops catching fuel ⟨m, s⟩ ts) (executeAll P ops catching fuel s' (ts.map .line)) := by
  induction ts with
  | nil => exact fun m s s' hb hs _ => .ok ⟨hs, hb, rfl⟩
  | cons t ts ih =>
    intro m s s' hb hs hl
    have hk : Keeps m (m.make t) := keeps_make (.refl _) t
    refine .bind ((nested_sim (ops := ops) (catching := catching) (lex := lex) hI hP fuel 0).1 (m.make t) s s' _ t (hs.keeps hI hk) hl
      (read_make m t)) ?_
    rintro ⟨⟨m1, s1⟩, o⟩ ⟨s1', o'⟩ ⟨h1, h2, h3, h4⟩
    dsimp only at h1 h2 h3 h4 ⊢
    have hm : Holds m1 m.length t := h3 _ _ (holds_make m t)
    have hf : m1.free m.length = .ok (m1.set m.length none) := by
      unfold Holds at hm
      simp [Mem.free, hm]
    have hn : ∀ t', ¬ Holds base m.length t' := fun t' ht => by
      have := hb _ _ ht
      simp [Holds] at this
    have hb1 : Keeps base m1 := hb.trans (hk.trans h3)
    have hb2 : Keeps base (m1.set m.length none) := keeps_free hb1 hn hf
    simp only [hf, Res.bind_ok]
    refine .bind (ih (m1.set m.length none) s1 s1' hb2 ⟨hL _ _ _ _ hb1 hb2 h1.user, h1.reg, h1.lexer, h1.freed, h1.next, h1.calls, h1.history⟩ h2) ?_
    rintro ⟨⟨m2, s2⟩, os⟩ ⟨s2', os'⟩ ⟨h5, h6, h7⟩
    dsimp only at h5 h6 h7 ⊢
    refine .ok ⟨h5, h6, ?_⟩
    rw [List.map_cons, h7, outIs_shown h4]

/-! ## One after another -/

theorem Sim_bind {ret₁ : Mem → R₁ → R₂ → Prop} {ret : Mem → R → R' → Prop} {base m : Mem} {v : VProg W C D R₁} {p : Prog W' C D R₂}
    (h : Sim I ret₁ base m v p) {f : R₁ → VProg W C D R} {f' : R₂ → Prog W' C D R'} :
    Keeps base m →
    (∀ base' m' r r', Keeps base base' → Keeps base' m' → ret₁ m' r r' → Sim I ret base' m' (f r) (f' r')) →
    Sim I ret base m (v.bind f) (p.bind f') := by
  induction h with
  | ret hr => exact fun hk hf => hf _ _ _ _ (.refl _) hk hr
  | throw e => exact fun _ _ => .throw e
  | ub w => exact fun _ _ => .ub w
  | diverge => exact fun _ _ => .diverge
  | log t _ ih => exact fun hk hf => .log t (ih hk hf)
  | logline t _ ih => exact fun hk hf => .logline t (ih hk hf)
  | reportError t _ ih => exact fun hk hf => .reportError t (ih hk hf)
  | hasErrors _ ih => exact fun hk hf => .hasErrors fun b => ih b hk hf
  | named _ ih => exact fun hk hf => .named fun l l' hl => ih l l' hl hk hf
  | setNamed i h1 h2 h3 _ ih => exact fun hk hf => .setNamed i h1 h2 h3 (ih h2 fun b' m' r r' hb => hf b' m' r r' (h1.trans hb))
  | get _ ih => exact fun hk hf => .get fun w w' hw => ih w w' hw hk hf
  | set hw _ ih => exact fun hk hf => .set hw (ih hk hf)
  | captured _ ih => exact fun hk hf => .captured fun d => ih d hk hf
  | add n fs _ ih => exact fun hk hf => .add n fs (ih hk hf)
  | remove n _ ih => exact fun hk hf => .remove n (ih hk hf)
  | clear _ ih => exact fun hk hf => .clear (ih hk hf)
  | execLine hr _ ih => exact fun hk hf => .execLine hr fun m' o o' h1 h2 => ih m' o o' h1 h2 (hk.trans h1) hf
  | execInput hr _ ih => exact fun hk hf => .execInput hr fun m' o o' h1 h2 => ih m' o o' h1 h2 (hk.trans h1) hf
  | make t _ ih => exact fun hk hf => .make t (ih (keeps_make hk t) hf)
  | write b t h1 h2 h3 _ ih => exact fun hk hf => .write b t h1 h2 h3 (ih (keeps_write hk h1 h2) hf)
  | free b h1 h2 h3 _ ih => exact fun hk hf => .free b h1 h2 h3 (ih (keeps_free hk h1 h2) hf)
  | read hr _ ih => exact fun hk hf => .read hr (ih hk hf)

theorem readsThen_under {ret : Mem → R → R' → Prop} {base m : Mem} {p : Prog W' C D R'} {rs : List Ref} {ts : List Bytes}
    (h : m.readList rs = .ok ts) {k : List Bytes → VProg W C D R} (hk : Sim I ret base m (k ts) p) : Sim I ret base m (readsThen rs k) p := by
  induction rs generalizing ts k with
  | nil => cases h; exact hk
  | cons r rs ih =>
    simp only [Mem.readList, Res.bind_eq_ok] at h
    obtain ⟨t, h1, ts', h2, h3⟩ := h
    cases h3
    exact .read h1 (ih h2 hk)

theorem readNamedThen_under {ret : Mem → R → R' → Prop} {base m : Mem} {p : Prog W' C D R'} {vs : List (GNamed Ref)} {xs : List Named}
    (h : m.readNamed vs = .ok xs) {k : List Named → VProg W C D R} (hk : Sim I ret base m (k xs) p) : Sim I ret base m (readNamedThen vs k) p := by
  induction vs generalizing xs k with
  | nil => cases h; exact hk
  | cons v vs ih =>
    simp only [Mem.readNamed, Mem.readOne, Mem.readValue, Res.bind_eq_ok] at h
    obtain ⟨t, ⟨y, h1, z, ⟨ts, h4, h5⟩, h6⟩, ts', h2, h3⟩ := h
    cases h5
    cases h6
    cases h3
    exact .read h1 (readsThen_under h4 (ih h2 hk))

theorem vnamedT_sim {T : Type} (conv : Conv T) (key : Bytes) (required : Bool) (dflt : Option T) {base m : Mem} (hk : Keeps base m) :
    Sim I (fun _ a b => a = b) base m (vnamedT (W := W) (C := C) (D := D) conv key required dflt) (namedGetOrReportT conv key required dflt) := by
  refine .named fun l l' hl => readNamedThen_under (readNamed_keeps hk hl) ?_
  simp only [namedGet]
  cases namedFind key l' with
  | none =>
    cases required
    · exact .ret rfl
    · exact .reportError _ (.ret rfl)
  | some nv =>
    dsimp only [Prog.bind]
    cases conv.fromString nv.value with
    | ok e =>
      cases e with
      | ok x => exact .ret rfl
      | error e => exact .reportError _ (.ret rfl)
    | ub w => exact .ub w
    | diverge => exact .diverge

end Vw
end Coil
