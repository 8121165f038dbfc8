import Verif.Spec.Refusal
import Verif.Proofs.EntityProgram
import Verif.Proofs.EnumPrograms
import Verif.Proofs.NamedProgram
import Verif.Proofs.Overloading
import Verif.Proofs.PropertyProgram
import Verif.Proofs.Swarm
import Verif.Proofs.UserProgram
import Verif.Proofs.VarProgram

/-!
# Commands that are refused: lemmas
-/

namespace Coil
open Spec Fl Floats

variable {pl : Platform} {sz : IntType} {tiny : Nat → Nat → Bool} {size : Bytes}

/-! ## Conversions -/

theorem arith_errors {α : Type} {name : Bytes} {parse : Bytes → Option α} {print : α → Bytes} {Q : Bytes → Prop} (hn : NulFree name)
    (hQ : ∀ s, (∃ x, (arithConv name parse print).fromString ⟨[s]⟩ = .ok (.ok x)) ↔ Q s) {v : Value} {m : Bytes} :
    (arithConv name parse print).fromString v = .ok (.error m) ↔
      (v.subvalues.length ≠ 1 ∧ m = wrongParts v name 1) ∨ ∃ s, v = ⟨[s]⟩ ∧ ¬ Q s ∧ m = cannotConvert (upToNul s) name := by
  by_cases h : v.subvalues.length = 1
  · obtain ⟨l⟩ := v
    match l, h with
    | [s], _ =>
      have hq := hQ s
      rw [arithConv_single] at hq ⊢
      rw [cstr_of_nulFree hn] at hq ⊢
      cases hp : parse s with
      | some x =>
        simp only [hp] at hq ⊢
        have : Q s := hq.1 ⟨_, rfl⟩
        simp [this]
      | none =>
        simp only [hp] at hq ⊢
        have : ¬ Q s := fun h => by obtain ⟨x, hx⟩ := hq.2 h; simp at hx
        simp [this, eq_comm, cstr, upToNul]
  · rw [arithConv_other _ _ _ h, cstr_of_nulFree hn]
    have : ∀ s, v ≠ ⟨[s]⟩ := by rintro s rfl; simp at h
    simp [h, this, eq_comm, wrongParts, cstr, upToNul]

theorem string_nulFree : NulFree (lit "string") := by unfold NulFree; decide

theorem suits_text : Suits pl tiny size stringConv .text := by
  intro v
  by_cases h1 : v.subvalues.length = 1
  · obtain ⟨l⟩ := v
    match l, h1 with
    | [s], _ =>
      refine ⟨⟨fun _ => ⟨s, rfl⟩, fun _ => ⟨s, rfl⟩⟩, fun m => ⟨fun h => ?_, fun h => ?_⟩⟩
      · cases h
      · cases h with
        | text h => simp at h
  · have e : stringConv.fromString v = .ok (.error (wrongParts v (lit "string") 1)) := by
      have : mismatchError (lit "string") v 1 = wrongParts v (lit "string") 1 := by
        rw [mismatchError_eq, cstr_of_nulFree string_nulFree]
        rfl
      obtain ⟨l⟩ := v
      rw [← this]
      match l, h1 with
      | [], _ => rfl
      | _ :: _ :: _, _ => rfl
    rw [e]
    refine ⟨⟨fun ⟨x, h⟩ => by simp at h, fun ⟨s, h⟩ => by subst h; simp at h1⟩, fun m => ?_⟩
    simp only [Res.ok.injEq, Except.error.injEq]
    constructor
    · rintro rfl
      exact .text h1
    · intro h
      cases h
      rfl

theorem suits_int : Suits pl tiny size (intConv pl .int) .int := by
  intro v
  refine ⟨?_, fun m => ?_⟩
  · simp only [int_reads, Kind.Takes]
    exact ⟨fun ⟨x, t, h⟩ => ⟨t, x, h⟩, fun ⟨t, x, h⟩ => ⟨x, t, h⟩⟩
  · have hq : ∀ s, (∃ x, (intConv pl .int).fromString ⟨[s]⟩ = .ok (.ok x)) ↔ ∃ z, IntText pl s z := by
      intro s
      simp only [int_reads]
      constructor
      · rintro ⟨x, t, h, h'⟩
        cases h
        exact ⟨x, h'⟩
      · exact fun ⟨x, h⟩ => ⟨x, s, rfl, h⟩
    rw [intConv] at hq ⊢
    rw [arith_errors (intName_nulFree pl .int) hq]
    constructor
    · rintro (⟨h, rfl⟩ | ⟨s, rfl, h, rfl⟩)
      · exact .intParts h
      · exact .int h
    · intro h
      cases h with
      | intParts h => exact .inl ⟨h, rfl⟩
      | int h => exact .inr ⟨_, rfl, h, rfl⟩

theorem suits_size (hsz : SizeType pl sz) : Suits pl tiny (sz.name pl) (intConv pl sz) .size := by
  intro v
  refine ⟨?_, fun m => ?_⟩
  · simp only [size_reads hsz, Kind.Takes]
    exact ⟨fun ⟨x, t, h⟩ => ⟨t, x, h⟩, fun ⟨t, x, h⟩ => ⟨x, t, h⟩⟩
  · have hq : ∀ s, (∃ x, (intConv pl sz).fromString ⟨[s]⟩ = .ok (.ok x)) ↔ ∃ z, IndexText s z := by
      intro s
      simp only [size_reads hsz]
      constructor
      · rintro ⟨x, t, h, h'⟩
        cases h
        exact ⟨x, h'⟩
      · exact fun ⟨x, h⟩ => ⟨x, s, rfl, h⟩
    rw [intConv] at hq ⊢
    rw [arith_errors (intName_nulFree pl sz) hq]
    constructor
    · rintro (⟨h, rfl⟩ | ⟨s, rfl, h, rfl⟩)
      · exact .sizeParts h
      · exact .size h
    · intro h
      cases h with
      | sizeParts h => exact .inl ⟨h, rfl⟩
      | size h => exact .inr ⟨_, rfl, h, rfl⟩

theorem suits_float : Suits pl tiny size (singleConv tiny) .float := by
  intro v
  refine ⟨⟨?_, ?_⟩, fun m => ?_⟩
  · rintro ⟨x, h⟩
    obtain ⟨t, rfl, h⟩ := float_read h
    exact ⟨t, x, rfl, h⟩
  · rintro ⟨t, x, rfl, h⟩
    exact ⟨x, h⟩
  · rw [float_error]
    exact ⟨.float, fun h => by cases h; assumption⟩

theorem suits_truth : Suits pl tiny size (boolConv pl) .truth := by
  intro v
  refine ⟨⟨?_, ?_⟩, fun m => ⟨?_, ?_⟩⟩
  · rintro ⟨x, h⟩
    obtain ⟨t, rfl, hb⟩ := bool_reads.1 h
    exact ⟨t, rfl, x, hb⟩
  · rintro ⟨t, rfl, x, h⟩
    exact ⟨x, bool_reads.2 ⟨t, rfl, h⟩⟩
  · intro h
    by_cases h1 : v.subvalues.length = 1
    · obtain ⟨l⟩ := v
      match l, h1 with
      | [s], _ =>
        have hd := (bool_converts (pl := pl) ⟨[s]⟩).1 ⟨_, h⟩
        cases bool_error h
        refine .truth ?_ fun h2 => hd ⟨h2.1, s, rfl, h2.2⟩
        rintro ⟨b, hb⟩
        have := h.symm.trans (bool_reads.2 ⟨s, rfl, hb⟩)
        simp at this
    · rw [C15_bool h1] at h
      cases h
      exact .truthParts h1
  · intro h
    cases h with
    | truthParts h1 => exact C15_bool h1
    | truth h1 h2 =>
      rename_i s
      obtain ⟨r, hr⟩ := (bool_converts (pl := pl) ⟨[s]⟩).2 (fun ⟨a, t, ht, b⟩ => by cases ht; exact h2 ⟨a, b⟩)
      cases r with
      | ok b =>
        obtain ⟨t, ht, hb⟩ := bool_reads.1 hr
        cases ht
        exact absurd ⟨b, hb⟩ h1
      | error m =>
        have := bool_error hr
        rw [hr, this]
        rfl

theorem generic_because {n m : Bytes} (hn : NulFree n) (hm : m ≠ []) (v : Value) : genericError n v m = because v n (upToNul m) := by
  rw [genericError_cons _ _ hm, cstr_of_nulFree hn]
  rfl

theorem cannotConvert_ne {t n : Bytes} : cannotConvert t n ≠ [] := by
  simp [cannotConvert, lit]

theorem convertBecause_ne {t n m : Bytes} : cannotConvertBecause t n m ≠ [] := by
  intro h
  simp [cannotConvertBecause, cannotConvert, lit] at h

theorem floatError_ne {v : Value} {m : Bytes} (h : FloatError tiny v m) : m ≠ [] := by
  cases h with
  | bad h =>
    cases h with
    | text => exact cannotConvert_ne
    | large => exact cannotConvert_ne
    | parts => exact convertBecause_ne
  | small => exact cannotConvert_ne

theorem said_ne {k : Kind} {v : Value} {m : Bytes} (h : k.Says pl tiny size v m) : m ≠ [] := by
  cases h with
  | text => exact convertBecause_ne
  | intParts => exact convertBecause_ne
  | int => exact cannotConvert_ne
  | sizeParts => exact convertBecause_ne
  | size => exact cannotConvert_ne
  | float h => exact floatError_ne h
  | truthParts => exact convertBecause_ne
  | truth => exact cannotConvert_ne
  | pairParts => exact convertBecause_ne
  | pairFirst => exact convertBecause_ne
  | pairSecond => exact convertBecause_ne
  | entity => exact convertBecause_ne
  | list => exact convertBecause_ne
  | vector => exact convertBecause_ne
  | option => exact convertBecause_ne
  | choiceParts => exact convertBecause_ne
  | choice => exact convertBecause_ne

theorem vec_nulFree : NulFree (lit "Vec2") := by unfold NulFree; decide
theorem entity_nulFree : NulFree (lit "EntityId") := by unfold NulFree; decide

theorem suits_pair : Suits pl tiny size (vec2Conv tiny) (.pair (lit "Vec2")) := by
  intro v
  refine ⟨⟨?_, ?_⟩, fun m => ?_⟩
  · rintro ⟨p, h⟩
    obtain ⟨a, b, rfl, h1, h2⟩ := vec_iff.1 h
    exact ⟨a, b, _, _, rfl, h1, h2⟩
  · rintro ⟨a, b, x, y, rfl, h1, h2⟩
    exact ⟨⟨x, y⟩, vec_iff.2 ⟨a, b, rfl, h1, h2⟩⟩
  · have fe : ∀ {v : Value} {m : Bytes}, FloatError tiny v m → m ≠ [] := floatError_ne
    by_cases h2 : v.subvalues.length = 2
    · obtain ⟨l⟩ := v
      match l, h2 with
      | [a, b], _ =>
        obtain ⟨rx, hx⟩ := single_defined (tiny := tiny) ⟨[a]⟩
        obtain ⟨ry, hy⟩ := single_defined (tiny := tiny) ⟨[b]⟩
        simp only [vec2Conv, hx, hy, Res.bind_ok]
        have no : ¬ ((⟨[a, b]⟩ : Value).subvalues.length ≠ 2) := by simp
        cases rx with
        | error e =>
          have he := float_error.1 hx
          simp only [Res.ok.injEq, Except.error.injEq]
          rw [generic_because vec_nulFree (fe he)]
          constructor
          · rintro rfl
            exact .pairFirst he
          · intro h
            cases h with
            | pairParts h => exact absurd h no
            | pairFirst h =>
              have := (float_error.2 h).symm.trans hx
              cases this
              rfl
            | pairSecond h _ =>
              have := Eq.trans (Eq.symm h) hx
              simp at this
        | ok x =>
          cases ry with
          | error e =>
            have he := float_error.1 hy
            simp only [Res.ok.injEq, Except.error.injEq]
            rw [generic_because vec_nulFree (fe he)]
            constructor
            · rintro rfl
              exact .pairSecond hx he
            · intro h
              cases h with
              | pairParts h => exact absurd h no
              | pairFirst h =>
                have := (float_error.2 h).symm.trans hx
                simp at this
              | pairSecond _ h =>
                have := (float_error.2 h).symm.trans hy
                cases this
                rfl
          | ok y =>
            refine ⟨fun h => by simp at h, fun h => ?_⟩
            cases h with
            | pairParts h => exact absurd h no
            | pairFirst h =>
              have := (float_error.2 h).symm.trans hx
              simp at this
            | pairSecond _ h =>
              have := (float_error.2 h).symm.trans hy
              simp at this
    · have e : (vec2Conv tiny).fromString v = .ok (.error (wrongParts v (lit "Vec2") 2)) := by
        have : mismatchError (lit "Vec2") v 2 = wrongParts v (lit "Vec2") 2 := by
          rw [mismatchError_eq, cstr_of_nulFree vec_nulFree]
          rfl
        obtain ⟨l⟩ := v
        rw [← this]
        match l, h2 with
        | [], _ => rfl
        | [_], _ => rfl
        | _ :: _ :: _ :: _, _ => rfl
      rw [e]
      simp only [Res.ok.injEq, Except.error.injEq]
      constructor
      · rintro rfl
        exact .pairParts h2
      · intro h
        cases h with
        | pairParts => rfl
        | pairFirst => simp at h2
        | pairSecond => simp at h2

theorem suits_point {name : Bytes} (hn : NulFree name) : Suits pl tiny size (pointConv tiny name) (.pair name) := by
  intro v
  refine ⟨⟨?_, ?_⟩, fun m => ?_⟩
  · rintro ⟨p, h⟩
    obtain ⟨a, b, rfl, h1, h2⟩ := point_iff.1 h
    exact ⟨a, b, _, _, rfl, h1, h2⟩
  · rintro ⟨a, b, x, y, rfl, h1, h2⟩
    exact ⟨⟨x, y⟩, point_iff.2 ⟨a, b, rfl, h1, h2⟩⟩
  · have fe : ∀ {v : Value} {m : Bytes}, FloatError tiny v m → m ≠ [] := floatError_ne
    by_cases h2 : v.subvalues.length = 2
    · obtain ⟨l⟩ := v
      match l, h2 with
      | [a, b], _ =>
        obtain ⟨rx, hx⟩ := single_defined (tiny := tiny) ⟨[a]⟩
        obtain ⟨ry, hy⟩ := single_defined (tiny := tiny) ⟨[b]⟩
        simp only [pointConv, hx, hy, Res.bind_ok]
        have no : ¬ ((⟨[a, b]⟩ : Value).subvalues.length ≠ 2) := by simp
        cases rx with
        | error e =>
          have he := float_error.1 hx
          simp only [Res.ok.injEq, Except.error.injEq]
          rw [generic_because hn (fe he)]
          constructor
          · rintro rfl
            exact .pairFirst he
          · intro h
            cases h with
            | pairParts h => exact absurd h no
            | pairFirst h =>
              have := (float_error.2 h).symm.trans hx
              cases this
              rfl
            | pairSecond h _ =>
              have := Eq.trans (Eq.symm h) hx
              simp at this
        | ok x =>
          cases ry with
          | error e =>
            have he := float_error.1 hy
            simp only [Res.ok.injEq, Except.error.injEq]
            rw [generic_because hn (fe he)]
            constructor
            · rintro rfl
              exact .pairSecond hx he
            · intro h
              cases h with
              | pairParts h => exact absurd h no
              | pairFirst h =>
                have := (float_error.2 h).symm.trans hx
                simp at this
              | pairSecond _ h =>
                have := (float_error.2 h).symm.trans hy
                cases this
                rfl
          | ok y =>
            refine ⟨fun h => by simp at h, fun h => ?_⟩
            cases h with
            | pairParts h => exact absurd h no
            | pairFirst h =>
              have := (float_error.2 h).symm.trans hx
              simp at this
            | pairSecond _ h =>
              have := (float_error.2 h).symm.trans hy
              simp at this
    · have e : (pointConv tiny name).fromString v = .ok (.error (wrongParts v name 2)) := by
        have : mismatchError name v 2 = wrongParts v name 2 := by
          rw [mismatchError_eq, cstr_of_nulFree hn]
          rfl
        obtain ⟨l⟩ := v
        rw [← this]
        match l, h2 with
        | [], _ => rfl
        | [_], _ => rfl
        | _ :: _ :: _ :: _, _ => rfl
      rw [e]
      simp only [Res.ok.injEq, Except.error.injEq]
      constructor
      · rintro rfl
        exact .pairParts h2
      · intro h
        cases h with
        | pairParts => rfl
        | pairFirst => simp at h2
        | pairSecond => simp at h2

theorem suits_entity (hsz : SizeType pl sz) : Suits pl tiny (sz.name pl) (entityIdConv pl sz) .entity := by
  intro v
  obtain ⟨_, hs⟩ := suits_size (tiny := tiny) hsz v
  refine ⟨?_, fun m => ?_⟩
  · simp only [index_iff hsz, Kind.Takes]
    exact ⟨fun ⟨x, t, h⟩ => ⟨t, x, h⟩, fun ⟨t, x, h⟩ => ⟨x, t, h⟩⟩
  · obtain ⟨r, hr⟩ := int_converts (pl := pl) (t := sz) v
    simp only [entityIdConv, hr, Res.bind_ok]
    cases r with
    | ok x =>
      refine ⟨fun h => by simp at h, fun h => ?_⟩
      cases h with
      | entity h =>
        have := ((hs _).2 h).symm.trans hr
        simp at this
    | error e =>
      have he := (hs _).1 hr
      simp only [Res.ok.injEq, Except.error.injEq]
      rw [generic_because entity_nulFree (said_ne he)]
      constructor
      · rintro rfl
        exact .entity he
      · intro h
        cases h with
        | entity h =>
          have := ((hs _).2 h).symm.trans hr
          cases this
          rfl

theorem suits_any : Suits pl tiny size valueConv .any := by
  intro v
  refine ⟨⟨fun _ => trivial, fun _ => ⟨v, rfl⟩⟩, fun m => ⟨fun h => ?_, fun h => ?_⟩⟩
  · cases h
  · cases h

theorem suits_list {α : Type} {c : Conv α} {k : Kind} (hc : c.byRef = false) (hn : NulFree c.name) (hk : c.name = k.called pl size)
    (h : Suits pl tiny size c k) : Suits pl tiny size (dynConv c) (.list k) := by
  intro v
  have each : ∀ l : List Bytes, (∃ ys, Forall2 (fun s x => c.fromString ⟨[s]⟩ = .ok (.ok x)) l ys) ↔ ∀ s ∈ l, k.Takes pl tiny ⟨[s]⟩ := by
    intro l
    induction l with
    | nil => exact ⟨fun _ => by simp, fun _ => ⟨[], .nil⟩⟩
    | cons s l ih =>
      constructor
      · rintro ⟨_, hl⟩
        cases hl with
        | cons h1 h2 =>
          intro t ht
          rcases List.mem_cons.1 ht with rfl | ht
          · exact (h _).1.1 ⟨_, h1⟩
          · exact ih.1 ⟨_, h2⟩ t ht
      · intro ht
        obtain ⟨x, hx⟩ := (h _).1.2 (ht s (List.mem_cons_self ..))
        obtain ⟨ys, hy⟩ := ih.2 fun t h => ht t (List.mem_cons_of_mem _ h)
        exact ⟨x :: ys, .cons hx hy⟩
  have hnl : NulFree (lit "DynamicArray<" ++ c.name ++ lit ">") := by
    have a : NulFree (lit "DynamicArray<") := by unfold NulFree; decide
    have b : NulFree (lit ">") := by unfold NulFree; decide
    unfold NulFree at *
    simp only [List.mem_append]
    rintro ((h | h) | h)
    · exact a h
    · exact hn h
    · exact b h
  refine ⟨?_, fun m => ?_⟩
  · show (∃ x, dynLoop _ _ v v.subvalues [] = _) ↔ _
    simp only [dynLoop_eq, vecLoop_ok_iff hc, List.nil_append]
    rw [Kind.Takes, ← each]
    exact ⟨fun ⟨x, ys, h1, h2⟩ => ⟨ys, h2⟩, fun ⟨ys, h2⟩ => ⟨ys, ys, rfl, h2⟩⟩
  · show dynLoop _ _ v v.subvalues [] = _ ↔ _
    rw [dynLoop_eq, vecLoop_error_iff hc]
    constructor
    · rintro ⟨pre, s, post, ys, e, h1, h2, h3, rfl⟩
      have he := ((h _).2 _).1 h3
      rw [generic_because hnl (said_ne he), hk]
      exact .list h1 ((each pre).1 ⟨ys, h2⟩) he
    · intro hs
      cases hs with
      | list h1 h2 h3 =>
        obtain ⟨ys, hy⟩ := (each _).2 h2
        refine ⟨_, _, _, ys, _, h1, hy, ((h _).2 _).2 h3, ?_⟩
        rw [generic_because hnl (said_ne h3), hk]
        rfl

theorem suits_vector {α : Type} {c : Conv α} {k : Kind} (hc : c.byRef = false) (hn : NulFree c.name) (hk : c.name = k.called pl size)
    (h : Suits pl tiny size c k) : Suits pl tiny size (vecConv c) (.vector k) := by
  intro v
  have each : ∀ l : List Bytes, (∃ ys, Forall2 (fun s x => c.fromString ⟨[s]⟩ = .ok (.ok x)) l ys) ↔ ∀ s ∈ l, k.Takes pl tiny ⟨[s]⟩ := by
    intro l
    induction l with
    | nil => exact ⟨fun _ => by simp, fun _ => ⟨[], .nil⟩⟩
    | cons s l ih =>
      constructor
      · rintro ⟨_, hl⟩
        cases hl with
        | cons h1 h2 =>
          intro t ht
          rcases List.mem_cons.1 ht with rfl | ht
          · exact (h _).1.1 ⟨_, h1⟩
          · exact ih.1 ⟨_, h2⟩ t ht
      · intro ht
        obtain ⟨x, hx⟩ := (h _).1.2 (ht s (List.mem_cons_self ..))
        obtain ⟨ys, hy⟩ := ih.2 fun t h => ht t (List.mem_cons_of_mem _ h)
        exact ⟨x :: ys, .cons hx hy⟩
  have hnl : NulFree (lit "vector<" ++ c.name ++ lit ">") := by
    have a : NulFree (lit "vector<") := by unfold NulFree; decide
    have b : NulFree (lit ">") := by unfold NulFree; decide
    unfold NulFree at *
    simp only [List.mem_append]
    rintro ((h | h) | h)
    · exact a h
    · exact hn h
    · exact b h
  refine ⟨?_, fun m => ?_⟩
  · show (∃ x, vecLoop _ _ v v.subvalues [] = _) ↔ _
    simp only [vecLoop_ok_iff hc, List.nil_append]
    rw [Kind.Takes, ← each]
    exact ⟨fun ⟨x, ys, h1, h2⟩ => ⟨ys, h2⟩, fun ⟨ys, h2⟩ => ⟨ys, ys, rfl, h2⟩⟩
  · show vecLoop _ _ v v.subvalues [] = _ ↔ _
    rw [vecLoop_error_iff hc]
    constructor
    · rintro ⟨pre, s, post, ys, e, h1, h2, h3, rfl⟩
      have he := ((h _).2 _).1 h3
      rw [generic_because hnl (said_ne he), hk]
      exact .vector h1 ((each pre).1 ⟨ys, h2⟩) he
    · intro hs
      cases hs with
      | vector h1 h2 h3 =>
        obtain ⟨ys, hy⟩ := (each _).2 h2
        refine ⟨_, _, _, ys, _, h1, hy, ((h _).2 _).2 h3, ?_⟩
        rw [generic_because hnl (said_ne h3), hk]
        rfl

theorem suits_option {α : Type} {c : Conv α} {k : Kind} (hc : c.byRef = false) (hn : NulFree c.name) (hk : c.name = k.called pl size)
    (hd : ∀ v, ∃ r, c.fromString v = .ok r) (h : Suits pl tiny size c k) : Suits pl tiny size (optConv c) (.option k) := by
  intro v
  have hnl : NulFree (lit "optional<" ++ c.name ++ lit ">") := by
    have a : NulFree (lit "optional<") := by unfold NulFree; decide
    have b : NulFree (lit ">") := by unfold NulFree; decide
    unfold NulFree at *
    simp only [List.mem_append]
    rintro ((h | h) | h)
    · exact a h
    · exact hn h
    · exact b h
  have said : ∀ {m}, (Kind.option k).Says pl tiny size v m → ∃ s rest e, v.subvalues = s :: rest ∧ s ≠ [] ∧ k.Says pl tiny size ⟨[s]⟩ e ∧
      m = because v ((Kind.option k).called pl size) (upToNul e) := by
    intro m hm
    cases hm with
    | option h1 h2 h3 => exact ⟨_, _, _, h1, h2, h3, rfl⟩
  obtain ⟨l⟩ := v
  cases l with
  | nil =>
    refine ⟨⟨fun _ => .inl rfl, fun _ => ⟨none, rfl⟩⟩, fun m => ⟨(fun h => by cases h), fun h => ?_⟩⟩
    obtain ⟨_, _, _, h1, _⟩ := said h
    cases h1
  | cons s rest =>
    by_cases hs : s = []
    · subst hs
      refine ⟨⟨fun _ => .inr ⟨_, _, rfl, .inl rfl⟩, fun _ => ⟨none, rfl⟩⟩, fun m => ⟨(fun h => by cases h), fun h => ?_⟩⟩
      obtain ⟨_, _, _, h1, h2, _⟩ := said h
      cases h1
      exact absurd rfl h2
    · obtain ⟨r, hr⟩ := hd ⟨[s]⟩
      have e : (optConv c).fromString ⟨s :: rest⟩ = match r with
          | .ok x => .ok (.ok (some x))
          | .error e => .ok (.error (genericError (lit "optional<" ++ c.name ++ lit ">") ⟨s :: rest⟩ e)) := by
        simp only [optConv, if_neg hs, onTemporary_eq hc, hr, Res.bind_ok]
        cases r <;> rfl
      rw [e]
      obtain ⟨h1, h2⟩ := h ⟨[s]⟩
      cases r with
      | ok x =>
        refine ⟨⟨fun _ => .inr ⟨_, _, rfl, .inr (h1.1 ⟨x, hr⟩)⟩, fun _ => ⟨some x, rfl⟩⟩, fun m => ⟨(fun h => by cases h), fun h => ?_⟩⟩
        obtain ⟨_, _, m', g1, _, g2, _⟩ := said h
        cases g1
        have := ((h2 _).2 g2).symm.trans hr
        simp at this
      | error e =>
        have he := (h2 _).1 hr
        refine ⟨⟨(fun ⟨x, h⟩ => by cases h), ?_⟩, fun m => ?_⟩
        · rintro (h | ⟨_, _, g1, g2⟩)
          · cases h
          · cases g1
            rcases g2 with g2 | g2
            · exact absurd g2 hs
            · obtain ⟨x, hx⟩ := h1.2 g2
              have := hx.symm.trans hr
              simp at this
        · simp only [Res.ok.injEq, Except.error.injEq]
          rw [generic_because hnl (said_ne he), hk]
          constructor
          · rintro rfl
            exact .option rfl hs he
          · intro h
            obtain ⟨_, _, m', g1, _, g2, rfl⟩ := said h
            cases g1
            have := ((h2 _).2 g2).symm.trans hr
            cases this
            rfl

theorem suits_choice {d : EnumDecl} {cs : List (Bytes × Int)} {good : Int → Prop} (hc : d.constants = cs) (hd : Declarable pl d) (hp : PlainConstants cs)
    (hs : cs.Pairwise fun a b => a.2 < b.2) (ht : NulFree d.typeName) (hg : ∀ x, ValueOf d x ↔ good x) :
    Suits pl tiny size (enumConv pl d) (.choice d.typeName d.underlying cs good) := by
  subst hc
  intro v
  have hk : KnownList pl d d.constants := ⟨hs, fun n x => (plain_known hd hp).symm⟩
  refine ⟨?_, fun m => ⟨fun h => ?_, fun h => ?_⟩⟩
  · simp only [plain_accepts hd hp, hg, Kind.Takes]
    exact ⟨fun ⟨x, s, h⟩ => ⟨s, x, h⟩, fun ⟨s, x, h⟩ => ⟨x, s, h⟩⟩
  · rcases (C85_rejects hd ht v m).1 h with ⟨h1, rfl⟩ | ⟨s, es, h1, h2, h3, _⟩
    · exact .choiceParts h1
    · have h' := (C85_rejects hd ht v _).2 (.inr ⟨s, _, h1, h2, h3, hk, rfl⟩)
      have := h.symm.trans h'
      obtain ⟨l⟩ := v
      dsimp only at h1
      subst h1
      simp only [Res.ok.injEq, Except.error.injEq] at this
      subst this
      exact .choice h2 fun x ⟨n, hm, hw⟩ => h3 n x ((plain_known hd hp).2 hm) hw
  · cases h with
    | choiceParts h1 => exact (C85_rejects hd ht v _).2 (.inl ⟨h1, rfl⟩)
    | choice h1 h2 =>
      exact (C85_rejects hd ht _ _).2 (.inr ⟨_, _, rfl, h1, fun n x hm hw => h2 x ⟨n, (plain_known hd hp).1 hm, hw⟩, hk, rfl⟩)

theorem suits_scoped {d : EnumDecl} {cs : List (Bytes × Int)} (hc : d.constants = cs) (hu : d.underlying = .int) (hf : d.fixed = true) (hd : Declarable pl d)
    (hp : PlainConstants cs) (hs : cs.Pairwise fun a b => a.2 < b.2) (ht : NulFree d.typeName) :
    Suits pl tiny size (enumConv pl d) (.choice d.typeName .int cs fun _ => True) := by
  have := suits_choice (tiny := tiny) (size := size) (good := fun _ => True) hc hd hp hs ht fun x => ⟨fun _ => trivial, fun _ => .inl hf⟩
  rwa [hu] at this

/-! ## Commands -/

section Commands

variable {W C D : Type} {P : C → FunctorDef W C D} {T : Table C D} {sigs : Signatures} {catching : Bool} {w w' : W} {i : Input}

theorem suitsAll_length : ∀ {ps : List Param} {ks : List Kind}, SuitsAll pl tiny size ps ks → ps.length = ks.length
  | [], [], _ => rfl
  | _ :: _, _ :: _, h => by simp [suitsAll_length h.2]
  | [], _ :: _, h => h.elim
  | _ :: _, [], h => h.elim

theorem judged_iff : ∀ {ps : List Param} {ks : List Kind} {vs : List Value} {es : List Bytes}, SuitsAll pl tiny size ps ks →
    (Judged pl tiny size ks vs es ↔ ConversionsDefined ps vs ∧ conversionErrors ps vs = es)
  | [], [], vs, es, _ => by
    cases vs with
    | nil =>
      constructor
      · intro h
        cases h
        exact ⟨trivial, rfl⟩
      · rintro ⟨_, rfl⟩
        exact .nil
    | cons v vs =>
      constructor
      · intro h
        cases h
      · rintro ⟨h, _⟩
        exact h.elim
  | p :: ps, k :: ks, vs, es, h => by
    cases vs with
    | nil =>
      constructor
      · intro h
        cases h
      · rintro ⟨h, _⟩
        exact h.elim
    | cons v vs =>
      have ih := fun es => judged_iff (vs := vs) (es := es) h.2
      obtain ⟨h1, h2⟩ := h.1 v
      constructor
      · intro hj
        cases hj with
        | takes ht hj =>
          obtain ⟨g1, g2⟩ := (ih _).1 hj
          obtain ⟨x, hx⟩ := h1.2 ht
          exact ⟨⟨⟨_, hx⟩, g1⟩, by simp only [conversionErrors, hx]; exact g2⟩
        | said hs hj =>
          obtain ⟨g1, g2⟩ := (ih _).1 hj
          have hx := (h2 _).2 hs
          exact ⟨⟨⟨_, hx⟩, g1⟩, by simp only [conversionErrors, hx]; rw [g2]⟩
      · rintro ⟨⟨⟨r, hr⟩, hd⟩, rfl⟩
        cases r with
        | ok x =>
          simp only [conversionErrors, hr]
          exact .takes (h1.1 ⟨x, hr⟩) ((ih _).2 ⟨hd, rfl⟩)
        | error m =>
          simp only [conversionErrors, hr]
          exact .said ((h2 m).1 hr) ((ih _).2 ⟨hd, rfl⟩)
  | [], _ :: _, _, _, h => h.elim
  | _ :: _, [], _, _, h => h.elim

/-- The parameters of the functions are of these kinds. -/
abbrev FitsAll (pl : Platform) (tiny : Nat → Nat → Bool) (size : Bytes) (P : C → FunctorDef W C D) : List (C × D) → List (List Kind) → Prop :=
  Forall2 fun f ks => SuitsAll pl tiny size (P f.1).params ks

theorem signatures_of (h : HasSignatures pl tiny size P T sigs) (n : Bytes) :
    (T.functions n = none ∧ sigs.of n = none) ∨ ∃ fs kss, T.functions n = some fs ∧ sigs.of n = some kss ∧ FitsAll pl tiny size P fs kss := by
  unfold HasSignatures at h
  induction h with
  | nil => exact .inl ⟨rfl, rfl⟩
  | cons h1 _ ih =>
    rename_i c s _ _ _
    obtain ⟨m, fs⟩ := c
    obtain ⟨m', kss⟩ := s
    obtain ⟨rfl, hf⟩ := h1
    rcases ih with ⟨g1, g2⟩ | ⟨gs, lss, g1, g2, g3⟩
    · simp only [Table.functions, Signatures.of, g1, g2]
      by_cases e : m = n
      · exact .inr ⟨fs, kss, if_pos e, if_pos e, hf⟩
      · exact .inl ⟨if_neg e, if_neg e⟩
    · exact .inr ⟨gs, lss, by simp only [Table.functions, g1], by simp only [Signatures.of, g2], g3⟩

theorem fits_lengths {fs : List (C × D)} {kss : List (List Kind)} (h : FitsAll pl tiny size P fs kss) :
    fs.map (fun f => (P f.1).params.length) = kss.map List.length := by
  induction h with
  | nil => rfl
  | cons h1 _ ih => simp [suitsAll_length h1, ih]

theorem fits_none {fs : List (C × D)} {kss : List (List Kind)} {n : Nat} (h : FitsAll pl tiny size P fs kss) :
    (∀ f ∈ fs, (P f.1).params.length ≠ n) ↔ ∀ ks ∈ kss, ks.length ≠ n := by
  have e : (∀ f ∈ fs, (P f.1).params.length ≠ n) ↔ ∀ x ∈ fs.map (fun f => (P f.1).params.length), x ≠ n := by
    constructor
    · intro h x hx
      obtain ⟨f, hf, rfl⟩ := List.mem_map.1 hx
      exact h f hf
    · exact fun h f hf => h _ (List.mem_map.2 ⟨f, hf, rfl⟩)
  rw [e, fits_lengths h]
  simp

theorem fits_first {fs : List (C × D)} {kss : List (List Kind)} {n : Nat} {f : C × D} (h : FitsAll pl tiny size P fs kss) (hf : FirstTaking P n fs f) :
    ∃ ks, FirstWith n kss ks ∧ SuitsAll pl tiny size (P f.1).params ks := by
  obtain ⟨a, b, rfl, h1, h2⟩ := hf
  induction a generalizing kss with
  | nil =>
    cases h with
    | cons g1 g2 => exact ⟨_, ⟨[], _, rfl, by rw [← suitsAll_length g1, h1], by simp⟩, g1⟩
  | cons x a ih =>
    cases h with
    | cons g1 g2 =>
      obtain ⟨ks, ⟨c, d, rfl, k1, k2⟩, k3⟩ := ih g2 fun g hg => h2 g (List.mem_cons_of_mem _ hg)
      refine ⟨ks, ⟨_ :: c, d, rfl, k1, ?_⟩, k3⟩
      intro y hy
      rcases List.mem_cons.1 hy with rfl | hy
      · rw [← suitsAll_length g1]
        exact h2 x (List.mem_cons_self ..)
      · exact k2 y hy

theorem firstWith_one {n : Nat} {kss : List (List Kind)} {a b : List Kind} (h1 : FirstWith n kss a) (h2 : FirstWith n kss b) : a = b := by
  obtain ⟨p, q, rfl, k, k'⟩ := h1
  obtain ⟨p', q', e, l, l'⟩ := h2
  induction p generalizing p' with
  | nil =>
    cases p' with
    | nil => simpa using (List.cons.inj e).1
    | cons x p' =>
      obtain ⟨rfl, _⟩ := List.cons.inj e
      exact absurd k (l' _ (List.mem_cons_self ..))
  | cons x p ih =>
    cases p' with
    | nil =>
      obtain ⟨rfl, _⟩ := List.cons.inj e
      exact absurd l (k' _ (List.mem_cons_self ..))
    | cons y p' =>
      obtain ⟨rfl, e'⟩ := List.cons.inj e
      exact ih (fun g hg => k' g (List.mem_cons_of_mem _ hg)) p' e' fun g hg => l' g (List.mem_cons_of_mem _ hg)

/-- A command that is refused is answered by the errors and changes nothing; and it is answered. -/
theorem declined_replies (hs : HasSignatures pl tiny size P T sigs) {es : List Bytes} (h : Declined pl tiny size sigs i es) {out : ExecOut} :
    Replies P catching T w i w' out ↔ w' = w ∧ out = .ok ⟨i, es, none, []⟩ := by
  have key : Replies P catching T w i w (.ok ⟨i, es, none, []⟩) := by
    cases h with
    | noName h => exact .noName h
    | unknown h1 h2 =>
      rcases signatures_of hs i.name with ⟨g, _⟩ | ⟨fs, kss, g1, g2, g3⟩
      · exact .unknown h1 g
      · rw [h2] at g2
        cases g2
    | count h1 h2 h3 =>
      rcases signatures_of hs i.name with ⟨_, g⟩ | ⟨fs, kss, g1, g2, g3⟩
      · rw [h2] at g
        cases g
      · rw [h2] at g2
        cases g2
        rw [← fits_lengths g3]
        exact .count h1 g1 ((fits_none g3).2 h3)
    | arguments h1 h2 h3 h4 h5 =>
      rcases signatures_of hs i.name with ⟨_, g⟩ | ⟨fs, kss, g1, g2, g3⟩
      · rw [h2] at g
        cases g
      · rw [h2] at g2
        cases g2
        rcases firstTaking_or (P := P) i.arguments.length fs with g | ⟨f, hf⟩
        · obtain ⟨a, b, rfl, k, _⟩ := h3
          exact absurd k ((fits_none g3).1 g _ (by simp))
        · obtain ⟨ks, k1, k2⟩ := fits_first g3 hf
          obtain rfl := firstWith_one h3 k1
          obtain ⟨c1, rfl⟩ := (judged_iff k2).1 h4
          exact .mismatch h1 g1 hf c1 h5
  constructor
  · intro hr
    exact ⟨(replies_unique hr key).1, (replies_unique hr key).2⟩
  · rintro ⟨rfl, rfl⟩
    exact key

/-- A command that is answered is refused or understood. -/
theorem replies_either (hs : HasSignatures pl tiny size P T sigs) {out : ExecOut} (h : Replies P catching T w i w' out) :
    (∃ es, Declined pl tiny size sigs i es) ∨ Understood pl tiny size sigs i := by
  have fits : ∀ {fs}, T.functions i.name = some fs → ∃ kss, sigs.of i.name = some kss ∧ FitsAll pl tiny size P fs kss := by
    intro fs hf
    rcases signatures_of hs i.name with ⟨g, _⟩ | ⟨fs', kss, g1, g2, g3⟩
    · rw [hf] at g
      cases g
    · rw [hf] at g1
      cases g1
      exact ⟨kss, g2, g3⟩
  have done : ∀ {fs f xs}, i.name ≠ [] → T.functions i.name = some fs → FirstTaking P i.arguments.length fs f → ConvertTo (P f.1).params i.arguments xs →
      Understood pl tiny size sigs i := by
    intro fs f xs h1 h2 h3 h4
    obtain ⟨kss, g1, g2⟩ := fits h2
    obtain ⟨ks, k1, k2⟩ := fits_first g2 h3
    exact ⟨h1, kss, ks, g1, k1, (judged_iff k2).2 (convertTo_defined h4)⟩
  cases h with
  | noName h => exact .inl ⟨_, .noName h⟩
  | unknown h1 h2 =>
    rcases signatures_of hs i.name with ⟨_, g⟩ | ⟨fs', kss, g1, g2, g3⟩
    · exact .inl ⟨_, .unknown h1 g⟩
    · rw [h2] at g1
      cases g1
  | count h1 h2 h3 =>
    obtain ⟨kss, g1, g2⟩ := fits h2
    exact .inl ⟨_, .count h1 g1 ((fits_none g2).1 h3)⟩
  | mismatch h1 h2 h3 h4 h5 =>
    obtain ⟨kss, g1, g2⟩ := fits h2
    obtain ⟨ks, k1, k2⟩ := fits_first g2 h3
    exact .inl ⟨_, .arguments h1 g1 k1 ((judged_iff k2).2 ⟨h4, rfl⟩) h5⟩
  | returned h1 h2 h3 h4 => exact .inr (done h1 h2 h3 h4)
  | thrown h1 h2 h3 h4 => exact .inr (done h1 h2 h3 h4)

/-- Not both. -/
theorem declined_not (hs : HasSignatures pl tiny size P T sigs) {es : List Bytes} (h : Declined pl tiny size sigs i es) :
    ¬ Understood pl tiny size sigs i := by
  rintro ⟨h0, kss, ks, h1, h2, h3⟩
  cases h with
  | noName h => exact h0 h
  | unknown _ h =>
    rw [h1] at h
    cases h
  | count _ h h' =>
    rw [h1] at h
    cases h
    obtain ⟨a, b, rfl, k, _⟩ := h2
    exact h' _ (by simp) k
  | arguments _ g1 g2 g3 g4 =>
    rw [h1] at g1
    cases g1
    obtain rfl := firstWith_one h2 g2
    rcases signatures_of hs i.name with ⟨_, g⟩ | ⟨fs, kss', k1, k2, k3⟩
    · rw [h1] at g
      cases g
    · rw [h1] at k2
      cases k2
      rcases firstTaking_or (P := P) i.arguments.length fs with g | ⟨f, hf⟩
      · obtain ⟨a, b, rfl, k, _⟩ := h2
        exact absurd k ((fits_none k3).1 g _ (by simp))
      · obtain ⟨ls, l1, l2⟩ := fits_first k3 hf
        obtain rfl := firstWith_one h2 l1
        exact g4 (((judged_iff l2).1 g3).2.symm.trans ((judged_iff l2).1 h3).2)

theorem asks_talk {cfg : LexCfg} (hp : Proper cfg) {r : Request} {rest : List Request} {outs : List ExecOut} (hr : Asks (delims cfg) r i) :
    Talk P catching T (delims cfg) w (r :: rest) outs w' ↔
      ∃ w1 out more, outs = out :: more ∧ Replies P catching T w i w1 out ∧ Talk P catching T (delims cfg) w1 rest more w' := by
  cases hr with
  | line hi =>
    constructor
    · intro h
      cases h with
      | wrong hm _ =>
        have := lexRead_accepts hp hi.2
        rw [lexRead_rejects hp hm.2] at this
        cases this
      | line hj h1 h2 =>
        obtain rfl := enters_one hp hi.2 hj.2
        exact ⟨_, _, _, rfl, h1, h2⟩
    · rintro ⟨w1, out, more, rfl, h1, h2⟩
      exact .line hi h1 h2
  | input =>
    constructor
    · intro h
      cases h with
      | input h1 h2 => exact ⟨_, _, _, rfl, h1, h2⟩
    · rintro ⟨w1, out, more, rfl, h1, h2⟩
      exact .input h1 h2

theorem talk_length {d : Delims} {reqs : List Request} {outs : List ExecOut} (h : Talk P catching T d w reqs outs w') : outs.length = reqs.length := by
  induction h with
  | nil => rfl
  | wrong _ _ ih => simp [ih]
  | line _ _ _ ih => simp [ih]
  | input _ _ ih => simp [ih]

end Commands

/-! ## The examples -/

theorem basic_signatures {nan : Fl → Fl → Bool} (hsz : SizeType pl sz) :
    HasSignatures pl tiny (sz.name pl) (basicFunctions pl sz tiny nan) basicTable basicSignatures := by
  have one : ∀ {α : Type} {c : Conv α} {k : Kind}, Suits pl tiny (sz.name pl) c k → SuitsAll pl tiny (sz.name pl) [⟨α, c⟩] [k] := fun h => ⟨h, trivial⟩
  have two : ∀ {α β : Type} {c : Conv α} {d : Conv β} {k l : Kind}, Suits pl tiny (sz.name pl) c k → Suits pl tiny (sz.name pl) d l →
      SuitsAll pl tiny (sz.name pl) [⟨α, c⟩, ⟨β, d⟩] [k, l] := fun h h' => ⟨h, h', trivial⟩
  refine .cons ⟨rfl, .cons trivial .nil⟩ <| .cons ⟨rfl, .cons trivial .nil⟩ <| .cons ⟨rfl, .cons (two suits_text (suits_size hsz)) .nil⟩ <|
    .cons ⟨rfl, .cons (one suits_text) .nil⟩ <| .cons ⟨rfl, .cons (one suits_truth) .nil⟩ <| .cons ⟨rfl, .cons (two suits_float suits_float) .nil⟩ <|
    .cons ⟨rfl, .cons (two suits_text suits_text) .nil⟩ <| .cons ⟨rfl, .cons (one suits_int) .nil⟩ <| .cons ⟨rfl, .cons (one suits_int) .nil⟩ <|
    .cons ⟨rfl, .cons (one suits_int) .nil⟩ <| .cons ⟨rfl, .cons (one suits_int) .nil⟩ <| .cons ⟨rfl, .cons (one suits_int) .nil⟩ <|
    .cons ⟨rfl, .cons (one suits_int) .nil⟩ .nil

theorem over_signatures : HasSignatures pl tiny size (overFunctions pl tiny) overTable overSignatures :=
  .cons ⟨rfl, .cons trivial (.cons ⟨suits_int, trivial⟩ (.cons ⟨suits_int, suits_float, trivial⟩ .nil))⟩ <|
    .cons ⟨rfl, .cons trivial (.cons ⟨suits_int, trivial⟩ (.cons ⟨suits_text, suits_float, trivial⟩
      (.cons ⟨suits_text, suits_float, suits_truth, trivial⟩ .nil)))⟩ <|
    .cons ⟨rfl, .cons ⟨suits_text, trivial⟩ (.cons ⟨suits_text, suits_float, trivial⟩ .nil)⟩ .nil

theorem user_signatures {nan : Fl → Fl → Bool} (hsz : SizeType pl sz) :
    HasSignatures pl tiny (sz.name pl) (userFunctions pl sz tiny nan) userTable userSignatures :=
  .cons ⟨rfl, .cons ⟨suits_text, trivial⟩ .nil⟩ <| .cons ⟨rfl, .cons ⟨suits_text, trivial⟩ .nil⟩ <|
    .cons ⟨rfl, .cons trivial (.cons ⟨suits_entity hsz, trivial⟩ .nil)⟩ <|
    .cons ⟨rfl, .cons ⟨suits_list (c := stringConv) rfl string_nulFree rfl suits_text, trivial⟩ .nil⟩ <|
    .cons ⟨rfl, .cons ⟨suits_pair, suits_pair, trivial⟩ .nil⟩ <| .cons ⟨rfl, .cons ⟨suits_float, trivial⟩ .nil⟩ <|
    .cons ⟨rfl, .cons trivial (.cons ⟨suits_pair, trivial⟩ .nil)⟩ <|
    .cons ⟨rfl, .cons ⟨suits_list (c := intConv pl .int) rfl (intName_nulFree pl .int) rfl suits_int, trivial⟩ .nil⟩ .nil

theorem error_signatures {nan : Fl → Bool} : HasSignatures pl tiny size (errorFunctions pl tiny nan) errorTable errorSignatures :=
  .cons ⟨rfl, .cons ⟨suits_float, trivial⟩ .nil⟩ <| .cons ⟨rfl, .cons ⟨suits_float, trivial⟩ .nil⟩ <|
    .cons ⟨rfl, .cons ⟨suits_any, trivial⟩ .nil⟩ <| .cons ⟨rfl, .cons ⟨suits_any, trivial⟩ .nil⟩ <| .cons ⟨rfl, .cons trivial .nil⟩ .nil

theorem named_signatures (hl : pl.long64 = true) :
    HasSignatures pl tiny (IntType.ulong.name pl) (namedFunctions pl tiny) namedTable namedSignatures :=
  .cons ⟨rfl, .cons trivial .nil⟩ <| .cons ⟨rfl, .cons ⟨suits_size (.inr ⟨rfl, hl⟩), suits_text, trivial⟩ .nil⟩ <| .cons ⟨rfl, .cons trivial .nil⟩ <|
    .cons ⟨rfl, .cons trivial .nil⟩ <| .cons ⟨rfl, .cons trivial .nil⟩ <| .cons ⟨rfl, .cons trivial .nil⟩ .nil

theorem prop_signatures {refuse : Nat → Option Exn} {nan : Fl → Fl → Bool} {hypot : Fl → Fl → Fl} (hl : pl.long64 = true) :
    HasSignatures pl tiny (IntType.ulong.name pl) (propFunctions pl refuse tiny nan hypot) propTable propSignatures :=
  .cons ⟨rfl, .cons trivial .nil⟩ <| .cons ⟨rfl, .cons trivial (.cons ⟨suits_float, trivial⟩ .nil)⟩ <|
    .cons ⟨rfl, .cons trivial (.cons ⟨suits_float, trivial⟩ .nil)⟩ <| .cons ⟨rfl, .cons trivial (.cons ⟨suits_float, trivial⟩ .nil)⟩ <|
    .cons ⟨rfl, .cons trivial (.cons ⟨suits_float, trivial⟩ .nil)⟩ <| .cons ⟨rfl, .cons trivial .nil⟩ <|
    .cons ⟨rfl, .cons trivial (.cons ⟨suits_size (.inr ⟨rfl, hl⟩), trivial⟩ .nil)⟩ .nil

theorem entity_signatures (hl : pl.long64 = true) :
    HasSignatures pl tiny (IntType.ulong.name pl) (entityFunctions pl) entityTable entitySignatures :=
  .cons ⟨rfl, .cons ⟨suits_any, suits_text, trivial⟩ .nil⟩ <| .cons ⟨rfl, .cons trivial .nil⟩ <|
    .cons ⟨rfl, .cons ⟨suits_size (.inr ⟨rfl, hl⟩), suits_text, trivial⟩ .nil⟩ .nil

theorem swarm_signatures {nan : Fl → Fl → Bool} {name sid : Bytes} (hn : NulFree name) :
    HasSignatures pl tiny size (swarmFunctions tiny nan name sid) swarmTable (swarmSignatures name) :=
  .cons ⟨rfl, .cons ⟨suits_text, suits_point hn, suits_point hn, trivial⟩ .nil⟩ <| .cons ⟨rfl, .cons ⟨suits_text, trivial⟩ .nil⟩ <|
    .cons ⟨rfl, .cons ⟨suits_float, trivial⟩ .nil⟩ <| .cons ⟨rfl, .cons trivial .nil⟩ <|
    .cons ⟨rfl, .cons trivial (.cons ⟨suits_point hn, trivial⟩ .nil)⟩ <|
    .cons ⟨rfl, .cons ⟨suits_vector (c := singleConv tiny) rfl float_nulFree rfl suits_float, trivial⟩ .nil⟩ <|
    .cons ⟨rfl, .cons ⟨suits_option (c := singleConv tiny) rfl float_nulFree rfl single_defined suits_float, trivial⟩ .nil⟩ .nil

/-- The constants of `Type`. -/
def exampleTypes : List (Bytes × Int) := [(lit "Type1", 0), (lit "Type2", 1), (lit "Type3", 2)]

theorem exampleType_plain : PlainConstants exampleTypes := ⟨by decide +kernel, by decide +kernel, sameWord_dec (by decide +kernel)⟩

theorem exampleType_declarable : Declarable pl exampleDecl :=
  declarable_of (cs := exampleTypes) rfl (by decide +kernel) (by decide +kernel) (by decide +kernel)

theorem var_signatures : HasSignatures pl tiny size (exampleVars pl tiny).functions (varTable (exampleCommands pl)) varSignatures :=
  .cons ⟨rfl, .cons trivial (.cons ⟨suits_float, trivial⟩ .nil)⟩ <| .cons ⟨rfl, .cons trivial (.cons ⟨suits_text, trivial⟩ .nil)⟩ <|
    .cons ⟨rfl, .cons trivial (.cons ⟨suits_scoped (d := exampleDecl) rfl rfl rfl exampleType_declarable exampleType_plain (by decide +kernel)
      (by unfold NulFree; decide +kernel), trivial⟩ .nil)⟩ <|
    .cons ⟨rfl, .cons trivial (.cons ⟨suits_truth, trivial⟩ .nil)⟩ <| .cons ⟨rfl, .cons trivial (.cons ⟨suits_truth, trivial⟩ .nil)⟩ <|
    .cons ⟨rfl, .cons trivial .nil⟩ .nil

theorem enum_signatures {u : IntType} : HasSignatures pl tiny size (enumFunctions pl u) enumTable (enumSignatures u) :=
  .cons ⟨rfl, .cons ⟨suits_scoped (d := abilityDecl) rfl rfl rfl ability_declarable abilities_plain (by decide +kernel) (by unfold NulFree; decide +kernel),
      suits_choice (d := resetModeDecl u) rfl mode_declarable resetModes_plain (by decide +kernel) (by show NulFree (lit "ResetMode"); unfold NulFree; decide +kernel)
        fun _ => mode_valueOf, trivial⟩ .nil⟩ <|
    .cons ⟨rfl, .cons trivial .nil⟩ <| .cons ⟨rfl, .cons trivial .nil⟩ <|
    .cons ⟨rfl, .cons trivial (.cons ⟨suits_scoped (d := variableTypeDecl) rfl rfl rfl type_declarable variableTypes_plain (by decide +kernel)
      (by unfold NulFree; decide +kernel), trivial⟩ .nil)⟩ .nil

theorem flags_signatures : HasSignatures pl tiny size (flagsFunctions pl) flagsTable flagsSignatures :=
  .cons ⟨rfl, .cons trivial (.cons ⟨suits_vector (c := enumConv pl drawDecl) rfl (by show NulFree drawDecl.typeName; unfold NulFree; decide +kernel) rfl
      (suits_scoped (d := drawDecl) rfl rfl rfl draw_declarable flagNames_plain (by decide +kernel) (by unfold NulFree; decide +kernel)), trivial⟩ .nil)⟩ <|
    .cons ⟨rfl, .cons trivial .nil⟩ .nil

end Coil
