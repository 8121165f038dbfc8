import Verif.Spec.Answered
import Verif.Proofs.Story
import Verif.Proofs.Typed

/-!
# When a program answers: lemmas
-/

namespace Coil
open Spec

variable {W C D : Type} {P : C → FunctorDef W C D} {T : Table C D} {good : W → Prop} {catching : Bool} {cfg : LexCfg}

theorem converts_of_defined {ps : List Param} {as : List Value} (h : ConversionsDefined ps as) (he : conversionErrors ps as = []) :
    ∃ xs, ConvertTo ps as xs := by
  induction ps generalizing as with
  | nil =>
    cases as with
    | nil => exact ⟨(), trivial⟩
    | cons => cases h
  | cons p ps ih =>
    cases as with
    | nil => cases h
    | cons a as =>
      obtain ⟨⟨r, hr⟩, h⟩ := h
      cases r with
      | error m => simp [conversionErrors, hr] at he
      | ok x =>
        simp only [conversionErrors, hr] at he
        obtain ⟨xs, hxs⟩ := ih h he
        exact ⟨(x, xs), hr, hxs⟩

theorem replies_when {w : W} (hw : good w) {i : Input}
    (hs : ∀ {c : Bytes × List (C × D)} {f : C × D} {xs : Args (P f.1).params} {l : List Named} {v : W} {es : List CtxEvent} {e : End (P f.1).R} {w' : W},
      c ∈ T → f ∈ c.2 → good v → Says f.2 l [] ((P f.1).body xs) w es e w' → ∃ es e v', Says f.2 l [] ((P f.1).body xs) v es e v') :
    (∃ w' out, Replies P catching T w i w' out) ↔ Answerable P T good i := by
  constructor
  · rintro ⟨w', out, h⟩ fs f hn hfs hf
    have same : ∀ {gs : List (C × D)} {g : C × D}, T.functions i.name = some gs → FirstTaking P i.arguments.length gs g → g = f := by
      intro gs g h1 h2
      rw [hfs] at h1
      cases h1
      exact firstTaking_unique h2 hf
    have ended : ∀ {gs : List (C × D)} {g : C × D} {xs : Args (P g.1).params} {es : List CtxEvent} {e : End (P g.1).R} {v : W},
        T.functions i.name = some gs → FirstTaking P i.arguments.length gs g → ConvertTo (P g.1).params i.arguments xs →
        Says g.2 i.namedArguments [] ((P g.1).body xs) w es e v → ConversionsDefined (P f.1).params i.arguments ∧
          ∀ xs, ConvertTo (P f.1).params i.arguments xs → ∀ w, good w → ∃ es e w', Says f.2 i.namedArguments [] ((P f.1).body xs) w es e w' := by
      intro gs g xs es e v h1 h2 hx hsay
      have := same h1 h2
      subst this
      refine ⟨(convertTo_defined hx).1, fun ys hy u hu => ?_⟩
      cases convertTo_unique hx hy
      exact hs (functions_mem h1) (firstTaking_member h2) hu hsay
    cases h with
    | noName h0 => exact absurd h0 hn
    | unknown _ h0 => rw [h0] at hfs; cases hfs
    | count _ h1 h2 =>
      rw [h1] at hfs
      cases hfs
      exact absurd (firstTaking_length hf) (h2 f (firstTaking_member hf))
    | mismatch _ h1 h2 h3 h4 =>
      have := same h1 h2
      subst this
      exact ⟨h3, fun xs hx => absurd (convertTo_defined hx).2 h4⟩
    | returned _ h1 h2 hx hsay => exact ended h1 h2 hx hsay
    | thrown _ h1 h2 hx hsay => exact ended h1 h2 hx hsay
  · intro h
    by_cases hn : i.name = []
    · exact ⟨_, _, .noName hn⟩
    cases hf : T.functions i.name with
    | none => exact ⟨_, _, .unknown hn hf⟩
    | some fs =>
      rcases firstTaking_or (P := P) i.arguments.length fs with h1 | ⟨f, h1⟩
      · exact ⟨_, _, .count hn hf h1⟩
      · obtain ⟨h2, h3⟩ := h fs f hn hf h1
        by_cases he : conversionErrors (P f.1).params i.arguments = []
        · obtain ⟨xs, hx⟩ := converts_of_defined h2 he
          obtain ⟨es, e, w', hsay⟩ := h3 xs hx w hw
          cases e with
          | ret r => exact ⟨_, _, .returned hn hf h1 hx hsay⟩
          | exn x => exact ⟨_, _, .thrown hn hf h1 hx hsay⟩
        · exact ⟨_, _, .mismatch hn hf h1 h2 he⟩

theorem replies_iff (hs : Steady P T good) {w : W} (hw : good w) {i : Input} : (∃ w' out, Replies P catching T w i w' out) ↔ Answerable P T good i :=
  replies_when hw fun h1 h2 h3 h4 => hs.same h1 h2 hw h3 h4

theorem replies_at {w : W} {i : Input} : (∃ w' out, Replies P catching T w i w' out) ↔ Answerable P T (fun v => v = w) i :=
  replies_when (good := fun v => v = w) rfl fun _ _ h3 h4 => ⟨_, _, _, h3 ▸ h4⟩

theorem replies_good (hs : Steady P T good) {w w' : W} (hw : good w) {i : Input} {out : ExecOut} (h : Replies P catching T w i w' out) : good w' := by
  cases h with
  | noName | unknown | count | mismatch => exact hw
  | returned _ h1 h2 _ h3 => exact hs.stays (functions_mem h1) (firstTaking_member h2) hw h3
  | thrown _ h1 h2 _ h3 => exact hs.stays (functions_mem h1) (firstTaking_member h2) hw h3

theorem enters_one (hp : Proper cfg) {t : Bytes} {i j : Input} (h1 : Accepts (delims cfg) t i) (h2 : Accepts (delims cfg) t j) : i = j := by
  have := lexRead_accepts hp h1
  rw [lexRead_accepts hp h2] at this
  cases this
  rfl

theorem talk_iff (hp : Proper cfg) (hs : Steady P T good) {reqs : List Request} {w : W} (hw : good w) :
    (∃ outs w', Talk P catching T (delims cfg) w reqs outs w') ↔
      ∀ r ∈ reqs, Enterable (delims cfg) r ∧ ∀ i, Enters (delims cfg) r i → Answerable P T good i := by
  induction reqs generalizing w with
  | nil => exact ⟨fun _ r hr => (by cases hr), fun _ => ⟨[], w, .nil⟩⟩
  | cons r rest ih =>
    simp only [List.mem_cons, forall_eq_or_imp]
    constructor
    · rintro ⟨outs, w', h⟩
      cases h with
      | @wrong _ t m _ outs _ hm ht =>
        refine ⟨⟨⟨hm.1, fun hl => ?_⟩, fun i hi => ?_⟩, (ih hw).1 ⟨_, _, ht⟩⟩
        · have := lexRead_lone hp hm.1 hl
          rw [lexRead_rejects hp hm.2] at this
          cases this
        · have := lexRead_accepts hp hi
          rw [lexRead_rejects hp hm.2] at this
          cases this
      | @line _ t i w1 out _ outs _ hi hr ht =>
        refine ⟨⟨⟨hi.1, fun hl => ?_⟩, fun j hj => ?_⟩, (ih (replies_good hs hw hr)).1 ⟨_, _, ht⟩⟩
        · have := lexRead_lone hp hi.1 hl
          rw [lexRead_accepts hp hi.2] at this
          cases this
        · cases enters_one hp hi.2 hj
          exact (replies_iff hs hw).1 ⟨_, _, hr⟩
      | @input _ i w1 out _ outs _ hr ht =>
        refine ⟨⟨trivial, fun j hj => ?_⟩, (ih (replies_good hs hw hr)).1 ⟨_, _, ht⟩⟩
        cases hj
        exact (replies_iff hs hw).1 ⟨_, _, hr⟩
    · rintro ⟨⟨h1, h2⟩, h3⟩
      cases r with
      | input i =>
        obtain ⟨w1, out, hr⟩ := (replies_iff (catching := catching) hs hw).2 (h2 i rfl)
        obtain ⟨outs, w', ht⟩ := (ih (replies_good hs hw hr)).2 h3
        exact ⟨_, _, .input hr ht⟩
      | line t =>
        rcases command_total (d := delims cfg) t with ⟨i, hi⟩ | ⟨m, hm⟩ | hl
        · obtain ⟨w1, out, hr⟩ := (replies_iff (catching := catching) hs hw).2 (h2 i hi)
          obtain ⟨outs, w', ht⟩ := (ih (replies_good hs hw hr)).2 h3
          exact ⟨_, _, .line ⟨h1.1, hi⟩ hr ht⟩
        · obtain ⟨outs, w', ht⟩ := (ih hw).2 h3
          exact ⟨_, _, .wrong ⟨h1.1, hm⟩ ht⟩
        · exact absurd hl h1.2

/-- One request. -/
theorem talk_one (hp : Proper cfg) {r : Request} {w : W} : (∃ outs w', Talk P catching T (delims cfg) w [r] outs w') ↔
    Enterable (delims cfg) r ∧ ∀ i, Enters (delims cfg) r i → Answerable P T (fun v => v = w) i := by
  constructor
  · rintro ⟨outs, w', h⟩
    cases h with
    | @wrong _ t m _ outs _ hm ht =>
      refine ⟨⟨hm.1, fun hl => ?_⟩, fun i hi => ?_⟩
      · have := lexRead_lone hp hm.1 hl
        rw [lexRead_rejects hp hm.2] at this
        cases this
      · have := lexRead_accepts hp hi
        rw [lexRead_rejects hp hm.2] at this
        cases this
    | @line _ t i w1 out _ outs _ hi hr ht =>
      refine ⟨⟨hi.1, fun hl => ?_⟩, fun j hj => ?_⟩
      · have := lexRead_lone hp hi.1 hl
        rw [lexRead_accepts hp hi.2] at this
        cases this
      · cases enters_one hp hi.2 hj
        exact replies_at.1 ⟨_, _, hr⟩
    | @input _ i w1 out _ outs _ hr ht =>
      refine ⟨trivial, fun j hj => ?_⟩
      cases hj
      exact replies_at.1 ⟨_, _, hr⟩
  · rintro ⟨h1, h2⟩
    cases r with
    | input i =>
      obtain ⟨w1, out, hr⟩ := (replies_at (catching := catching)).2 (h2 i rfl)
      exact ⟨_, _, .input hr .nil⟩
    | line t =>
      rcases command_total (d := delims cfg) t with ⟨i, hi⟩ | ⟨m, hm⟩ | hl
      · obtain ⟨w1, out, hr⟩ := (replies_at (catching := catching)).2 (h2 i hi)
        exact ⟨_, _, .line ⟨h1.1, hi⟩ hr .nil⟩
      · exact ⟨_, _, .wrong ⟨h1.1, hm⟩ .nil⟩
      · exact absurd hl h1.2

theorem talk_split {d : Delims} {a b : List Request} {w w2 : W} {outs : List ExecOut} (h : Talk P catching T d w (a ++ b) outs w2) :
    ∃ o1 o2 w1, outs = o1 ++ o2 ∧ Talk P catching T d w a o1 w1 ∧ Talk P catching T d w1 b o2 w2 := by
  induction a generalizing w outs with
  | nil => exact ⟨[], outs, w, rfl, .nil, h⟩
  | cons r a ih =>
    cases h with
    | wrong hm ht =>
      obtain ⟨o1, o2, w1, rfl, g1, g2⟩ := ih ht
      exact ⟨_ :: o1, o2, w1, rfl, .wrong hm g1, g2⟩
    | line hi hr ht =>
      obtain ⟨o1, o2, w1, rfl, g1, g2⟩ := ih ht
      exact ⟨_ :: o1, o2, w1, rfl, .line hi hr g1, g2⟩
    | input hr ht =>
      obtain ⟨o1, o2, w1, rfl, g1, g2⟩ := ih ht
      exact ⟨_ :: o1, o2, w1, rfl, .input hr g1, g2⟩

theorem talk_join {d : Delims} {a b : List Request} {w w1 w2 : W} {o1 o2 : List ExecOut} (h : Talk P catching T d w a o1 w1)
    (h' : Talk P catching T d w1 b o2 w2) : Talk P catching T d w (a ++ b) (o1 ++ o2) w2 := by
  induction h with
  | nil => exact h'
  | wrong hm _ ih => exact .wrong hm (ih h')
  | line hi hr _ ih => exact .line hi hr (ih h')
  | input hr _ ih => exact .input hr (ih h')

end Coil
