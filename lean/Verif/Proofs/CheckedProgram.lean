import Verif.Proofs.CheckedExec
import Verif.Props.Registry

/-! # Whole programs in builds with assertions -/

namespace Coil
open Spec

variable {W C D : Type} {P : C → FunctorDef W C D} {fixed charSigned : Bool} {exceeds : Nat → Nat → Bool}
  {catching : Bool} {fuel : Nat} {s : Sys (UMap Bytes (Command C D)) W C D}

theorem newBindings_both (charSigned : Bool) (lexer : Option Lexer) (w : W) :
    ∃ m : UMap Bytes (Command C D), newBindings charSigned lexer w = .ok ⟨m, lexer, w, [], 0, [], []⟩ ∧
      newBindingsC charSigned lexer w = .ok ⟨m, lexer, w, [], 0, [], []⟩ ∧ Dictionary charSigned m ∧ m.entries = [] ∧
      0 < m.buckets.length := by
  obtain ⟨m, h1, h2, h3⟩ := UMap.create_spec (V := Command C D) (djb2 charSigned) (n := 1) (by omega)
  refine ⟨m, ?_, ?_, ⟨_, fun _ => none, h2, by rw [h3]; exact UMap.lists_nil⟩, h3, h2.wf.nb⟩
  · simp only [newBindings, h1, Res.bind_ok]
  · simp only [newBindingsC, UMap.createC_of_ok h1, Res.bind_ok]

theorem Reached.dictionary (hex : ∀ b, 0 < b → exceeds 1 b = false) {acts : List (Action W C D)}
    (h : Reached P true charSigned exceeds catching acts s) : Dictionary charSigned s.reg := by
  obtain ⟨m0, h1, h2, h3⟩ := UMap.create_spec (V := Command C D) (djb2 charSigned) (n := 1) (by omega)
  obtain ⟨m, ph, g1, g2, g3, g4⟩ := UMap.run_spec hex (fixed := true) h2 (d := fun _ => none)
    (by rw [h3]; exact UMap.lists_nil) (s.history.map asDictOp) (.inl rfl)
  have := h.follows
  simp only [FollowsHistory, mapAfter, h1, Res.bind_ok, g1] at this
  cases this
  exact ⟨ph, _, g2, g4⟩

theorem lawsC (fixed charSigned : Bool) (exceeds : Nat → Nat → Bool) :
    RegLaws (mapOpsC (C := C) (D := D) fixed charSigned exceeds) UMap.entries where
  all _ := rfl
  find h := UMap.find_mem (UMap.stops_find.of_ok h)
  put_new h1 h2 := UMap.put_new (UMap.stops_find.of_ok h1) ((UMap.stops_put exceeds _).of_ok h2)
  put_old h1 h2 := UMap.put_old (UMap.stops_find.of_ok h1) ((UMap.stops_put exceeds _).of_ok h2)
  erase_found h1 h2 := UMap.erase_found (UMap.stops_find.of_ok h1) (UMap.stops_erase.of_ok h2)
  erase_missing h1 h2 := UMap.erase_missing (UMap.stops_find.of_ok h1) (UMap.stops_erase.of_ok h2)
  clear _ := rfl

theorem sameLexer_self (l : Option Lexer) : SameLexer True l l := by
  cases l with
  | none => exact .none trivial
  | some l => exact .some fun t => Mirrored.refl _ fun _ => rfl

/-- A request as part of a program. -/
theorem step_exec {changes : Prop} (hex : ∀ b, 0 < b → exceeds 1 b = false) (hP : CarefulFunctions changes P)
    (hb : 0 < s.reg.buckets.length) (hl : CarefulLexer s.lexer) (ho : Owned UMap.entries s) (req : Request)
    (hf : ∀ t, req = .line t → FitsMemory t) :
    Bounded changes (fun s' => 0 < s'.reg.buckets.length ∧ CarefulLexer s'.lexer ∧ Owned UMap.entries s')
      (actC P (mapOpsC fixed charSigned exceeds) catching fuel s (.exec req)) := by
  have hops := mapBounded (C := C) (D := D) (charSigned := charSigned) (fixed := fixed) hex
  have laws := lawsC (C := C) (D := D) fixed charSigned exceeds
  have sane : Sane changes (fun m : UMap Bytes (Command C D) => 0 < m.buckets.length) (mapOpsC fixed charSigned exceeds) s := by
    refine ⟨hb, hl, fun _ k cmd hk f hfm => ho.live _ (mem_entIds.2 ⟨k, cmd, laws.find hk, List.mem_map_of_mem hfm⟩)⟩
  have hn := bounded_nested (W := W) (catching := catching) hP hops fuel 0
  have hB : Bounded changes (Keeps changes (fun m : UMap Bytes (Command C D) => 0 < m.buckets.length) (mapOpsC fixed charSigned exceeds) s)
      (executeC P (mapOpsC fixed charSigned exceeds) catching fuel s req) := by
    cases req with
    | line t => exact hn.1 s t (hf t rfl) sane
    | input i => exact hn.2 s i sane
  have hm := mirror_nested (P := P) (catching := catching) (mapMirror (C := C) (D := D) fixed charSigned exceeds)
    (sameLexer_self s.lexer) fuel 0 s s req ⟨rfl, rfl, trivial⟩
  change Mirrors _ _ (executeC P (mapOpsC fixed charSigned exceeds) catching fuel s req)
    (execute P (mapOps fixed charSigned exceeds) catching fuel s req) at hm
  simp only [actC]
  cases hx : executeC P (mapOpsC fixed charSigned exceeds) catching fuel s req with
  | ok x =>
    obtain ⟨s', o⟩ := x
    rw [hx] at hB hm
    refine ⟨hB.1.reg, hB.1.lexer, ?_⟩
    generalize hy : execute P (mapOps fixed charSigned exceeds) catching fuel s req = y at hm
    cases hm with
    | @ok a b h =>
      obtain ⟨b1, b2⟩ := b
      obtain ⟨⟨h1, h2, -⟩, h3⟩ := h
      simp only at h1 h2 h3
      subst h2 h3
      have := (owned_preserved (W := W) (mapLaws (C := C) (D := D) fixed charSigned exceeds)).exec fuel 0 _ _ _ _ ho hy
      have := owned_setLexer s'.lexer this
      simpa [setLexer] using this
  | ub u =>
    rw [hx] at hB
    exact hB
  | diverge => trivial

/-- What a program with assertions keeps between its actions. -/
theorem bounded_program {changes : Prop} (hex : ∀ b, 0 < b → exceeds 1 b = false) (hP : CarefulFunctions changes P)
    (acts : List (Action W C D)) (ha : ∀ a ∈ acts, CarefulAction a) : ∀ s : Sys (UMap Bytes (Command C D)) W C D,
      0 < s.reg.buckets.length → CarefulLexer s.lexer → Owned UMap.entries s →
      Bounded changes (fun _ => True) (actAllC P (mapOpsC fixed charSigned exceeds) catching fuel s acts) := by
  induction acts with
  | nil => exact fun _ _ _ _ => trivial
  | cons a acts ih =>
    intro s hb hl ho
    have hops := mapBounded (C := C) (D := D) (charSigned := charSigned) (fixed := fixed) hex
    have laws := lawsC (C := C) (D := D) fixed charSigned exceeds
    have hp := owned_preserved (W := W) laws
    refine Bounded.bind (Q := fun s' => 0 < s'.reg.buckets.length ∧ CarefulLexer s'.lexer ∧ Owned UMap.entries s') ?_
      (fun s' h => ih (fun b hb => ha b (by simp [hb])) s' h.1 h.2.1 h.2.2)
    have weaken : ∀ {x : Res (Sys (UMap Bytes (Command C D)) W C D)} {Q : Sys (UMap Bytes (Command C D)) W C D → Prop},
        Contained x → (∀ s', x = .ok s' → Q s') → Bounded changes Q x := fun h hq => Bounded.of_contained h hq
    cases ha a (by simp) with
    | add n fs =>
      refine weaken (Contained.bind (hops.find _ n hb) fun o _ => Contained.bind (hops.put _ n _ hb).1 fun m _ => .ok) ?_
      intro s' h
      refine ⟨?_, ?_, hp.add _ _ _ _ ho h⟩
      all_goals
        obtain ⟨o, -, h2⟩ := Res.bind_eq_ok.1 h
        obtain ⟨m, h3, h4⟩ := Res.bind_eq_ok.1 h2
        cases h4
      · exact (hops.put _ n _ hb).2 _ h3
      · exact hl
    | remove n =>
      refine weaken (Contained.bind (hops.find _ n hb) fun o _ => Contained.bind (hops.erase _ n hb).1 fun m _ => .ok) ?_
      intro s' h
      refine ⟨?_, ?_, hp.remove _ _ _ ho h⟩
      all_goals
        obtain ⟨o, -, h2⟩ := Res.bind_eq_ok.1 h
        obtain ⟨m, h3, h4⟩ := Res.bind_eq_ok.1 h2
        cases h4
      · exact (hops.erase _ n hb).2 _ h3
      · exact hl
    | clear => exact ⟨hops.clear _ hb, hl, hp.clear _ ho⟩
    | setLexer h => exact ⟨hb, h, owned_setLexer _ ho⟩
    | setUser w => exact ⟨hb, hl, hp.user _ _ ho⟩
    | line ht => exact step_exec hex hP hb hl ho (.line _) (by rintro _ ⟨⟩; exact ht)
    | input i => exact step_exec hex hP hb hl ho (.input i) (by simp)

end Coil
