import Verif.Spec.RefusalGrowing
import Verif.Proofs.AdvancedProgram
import Verif.Proofs.Growing
import Verif.Proofs.Refusal

/-!
# Commands that are refused by programs whose commands make commands: lemmas
-/

namespace Coil
open Spec Fl Floats

section Commands

variable {W C D : Type} {P : C → FunctorDef W C D} {S S' : Standing W C D} {sigs : Signatures} {i : Input} {pl : Platform}
  {tiny : Nat → Nat → Bool} {size : Bytes} {catching : Bool}

theorem Spec.Offers.fits (hs : Offers pl tiny size P S.table i.name sigs) {fs : List (C × D)} (hf : S.table.functions i.name = some fs) :
    ∃ kss, sigs.of i.name = some kss ∧ Coil.FitsAll pl tiny size P fs kss := by
  rcases hs with ⟨g, _⟩ | ⟨fs', kss, g1, g2, g3⟩
  · rw [hf] at g
    cases g
  · rw [hf] at g1
    cases g1
    exact ⟨kss, g2, g3⟩

theorem Spec.Offers.functions (hs : Offers pl tiny size P S.table i.name sigs) {kss : List (List Kind)} (hf : sigs.of i.name = some kss) :
    ∃ fs, S.table.functions i.name = some fs ∧ Coil.FitsAll pl tiny size P fs kss := by
  rcases hs with ⟨_, g⟩ | ⟨fs, kss', g1, g2, g3⟩
  · rw [hf] at g
    cases g
  · rw [hf] at g2
    cases g2
    exact ⟨fs, g1, g3⟩

theorem Spec.Offers.first (hs : Offers pl tiny size P S.table i.name sigs) {kss : List (List Kind)} {ks : List Kind} (hf : sigs.of i.name = some kss)
    (hk : FirstWith i.arguments.length kss ks) :
    ∃ fs f, S.table.functions i.name = some fs ∧ FirstTaking P i.arguments.length fs f ∧ SuitsAll pl tiny size (P f.1).params ks := by
  obtain ⟨fs, g1, g3⟩ := hs.functions hf
  rcases firstTaking_or (P := P) i.arguments.length fs with g | ⟨f, hf⟩
  · obtain ⟨a, b, rfl, k, _⟩ := hk
    exact absurd k ((fits_none g3).1 g _ (by simp))
  · obtain ⟨ks', k1, k2⟩ := fits_first g3 hf
    obtain rfl := firstWith_one hk k1
    exact ⟨fs, f, g1, hf, k2⟩

/-- A command that is refused is answered by the errors and changes nothing; and it is answered. -/
theorem declined_responds (hs : Offers pl tiny size P S.table i.name sigs) {es : List Bytes} (h : Declined pl tiny size sigs i es) {out : ExecOut} :
    Responds P catching S i S' out ↔ S' = S ∧ out = .ok ⟨i, es, none, []⟩ := by
  have key : Responds P catching S i S (.ok ⟨i, es, none, []⟩) := by
    cases h with
    | noName h => exact .noName h
    | unknown h1 h2 =>
      rcases hs with ⟨g, _⟩ | ⟨fs, kss, g1, g2, g3⟩
      · exact .unknown h1 g
      · rw [h2] at g2
        cases g2
    | count h1 h2 h3 =>
      obtain ⟨fs, g1, g3⟩ := hs.functions h2
      rw [← fits_lengths g3]
      exact .count h1 g1 ((fits_none g3).2 h3)
    | arguments h1 h2 h3 h4 h5 =>
      obtain ⟨fs, f, g1, hf, k2⟩ := hs.first h2 h3
      obtain ⟨c1, rfl⟩ := (judged_iff k2).1 h4
      exact .mismatch h1 g1 hf c1 h5
  constructor
  · intro hr
    exact responds_unique hr key
  · rintro ⟨rfl, rfl⟩
    exact key

/-- A command that is answered is refused or understood. -/
theorem responds_either (hs : Offers pl tiny size P S.table i.name sigs) {out : ExecOut} (h : Responds P catching S i S' out) :
    (∃ es, Declined pl tiny size sigs i es) ∨ Understood pl tiny size sigs i := by
  have done : ∀ {fs f xs}, i.name ≠ [] → S.table.functions i.name = some fs → FirstTaking P i.arguments.length fs f →
      ConvertTo (P f.1).params i.arguments xs → Understood pl tiny size sigs i := by
    intro fs f xs h1 h2 h3 h4
    obtain ⟨kss, g1, g2⟩ := hs.fits h2
    obtain ⟨ks, k1, k2⟩ := fits_first g2 h3
    exact ⟨h1, kss, ks, g1, k1, (judged_iff k2).2 (convertTo_defined h4)⟩
  cases h with
  | noName h => exact .inl ⟨_, .noName h⟩
  | unknown h1 h2 =>
    rcases hs with ⟨_, g⟩ | ⟨fs', kss, g1, g2, g3⟩
    · exact .inl ⟨_, .unknown h1 g⟩
    · rw [h2] at g1
      cases g1
  | count h1 h2 h3 =>
    obtain ⟨kss, g1, g2⟩ := hs.fits h2
    exact .inl ⟨_, .count h1 g1 ((fits_none g2).1 h3)⟩
  | mismatch h1 h2 h3 h4 h5 =>
    obtain ⟨kss, g1, g2⟩ := hs.fits h2
    obtain ⟨ks, k1, k2⟩ := fits_first g2 h3
    exact .inl ⟨_, .arguments h1 g1 k1 ((judged_iff k2).2 ⟨h4, rfl⟩) h5⟩
  | returned h1 h2 h3 h4 => exact .inr (done h1 h2 h3 h4)
  | thrown h1 h2 h3 h4 => exact .inr (done h1 h2 h3 h4)

/-- Not both. -/
theorem declined_understood (hs : Offers pl tiny size P S.table i.name sigs) {es : List Bytes} (h : Declined pl tiny size sigs i es) :
    ¬ Understood pl tiny size sigs i := by
  rintro ⟨h0, kss, ks, h1, h2, h3⟩
  cases h with
  | noName h => exact h0 h
  | unknown _ h =>
    rw [h1] at h
    cases h
  | count _ h h' =>
    rw [h1] at h
    cases h
    obtain ⟨a, b, rfl, k, _⟩ := h2
    exact h' _ (by simp) k
  | arguments _ g1 g2 g3 g4 =>
    rw [h1] at g1
    cases g1
    obtain rfl := firstWith_one h2 g2
    obtain ⟨fs, f, _, _, l2⟩ := hs.first h1 h2
    exact g4 (((judged_iff l2).1 g3).2.symm.trans ((judged_iff l2).1 h3).2)

theorem asks_growth {cfg : LexCfg} (hp : Proper cfg) {r : Request} {rest : List Request} {outs : List ExecOut} (hr : Asks (delims cfg) r i) :
    Growth P catching (delims cfg) S (r :: rest) outs S' ↔
      ∃ S1 out more, outs = out :: more ∧ Responds P catching S i S1 out ∧ Growth P catching (delims cfg) S1 rest more S' := by
  cases hr with
  | line hi =>
    constructor
    · intro h
      cases h with
      | wrong hm _ =>
        have := lexRead_accepts hp hi.2
        rw [lexRead_rejects hp hm.2] at this
        cases this
      | line hj h1 h2 =>
        obtain rfl := enters_one hp hi.2 hj.2
        exact ⟨_, _, _, rfl, h1, h2⟩
    · rintro ⟨S1, out, more, rfl, h1, h2⟩
      exact .line hi h1 h2
  | input =>
    constructor
    · intro h
      cases h with
      | input h1 h2 => exact ⟨_, _, _, rfl, h1, h2⟩
    · rintro ⟨S1, out, more, rfl, h1, h2⟩
      exact .input h1 h2

theorem growth_answers {d : Delims} {reqs : List Request} {outs : List ExecOut} (h : Growth P catching d S reqs outs S') : outs.length = reqs.length := by
  induction h with
  | nil => rfl
  | wrong _ _ ih => simp [ih]
  | line _ _ _ ih => simp [ih]
  | input _ _ ih => simp [ih]

end Commands

/-! ## The advanced example -/

theorem advanced_offers {pl : Platform} {tiny : Nat → Nat → Bool} {nan : Fl → Fl → Bool} {size : Bytes} {S : Standing AdvancedWorld AdvancedCode Bytes}
    {h : AdvancedHistory} (hk : AdvKeeps S h) (n : Bytes) : Offers pl tiny size (advancedFunctions tiny nan) S.table n (h.offers n) := by
  have hn := hk.2 n
  unfold AdvancedHistory.offers
  cases hs : h.sense n with
  | none =>
    rw [hs] at hn
    exact .inl ⟨hn, rfl⟩
  | some s =>
    rw [hs] at hn
    refine .inr ⟨_, s.signatures, hn, by simp [Signatures.of], ?_⟩
    cases s with
    | rename => exact .cons ⟨suits_text, suits_text, trivial⟩ .nil
    | create => exact .cons ⟨suits_text, suits_text, trivial⟩ .nil
    | list => exact .cons trivial .nil
    | direction => exact .cons trivial (.cons ⟨suits_text, trivial⟩ .nil)
    | whole id => exact .cons trivial (.cons ⟨suits_any, trivial⟩ .nil)
    | field f id =>
      cases f with
      | id => exact .cons trivial (.cons ⟨suits_any, trivial⟩ .nil)
      | name => exact .cons trivial (.cons ⟨suits_text, trivial⟩ .nil)
      | payload => exact .cons trivial (.cons ⟨suits_text, trivial⟩ .nil)

end Coil
