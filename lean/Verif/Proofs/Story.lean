import Verif.Spec.Story
import Verif.Proofs.Fixed

/-!
# From conversations to stories
-/

namespace Coil
open Spec

theorem firstTaking_member {W C D : Type} {P : C → FunctorDef W C D} {n : Nat} {fs : List (C × D)} {f : C × D} (h : FirstTaking P n fs f) : f ∈ fs := by
  obtain ⟨a, b, rfl, _⟩ := h
  simp

theorem firstTaking_length {W C D : Type} {P : C → FunctorDef W C D} {n : Nat} {fs : List (C × D)} {f : C × D} (h : FirstTaking P n fs f) :
    (P f.1).params.length = n := by
  obtain ⟨a, b, rfl, h, _⟩ := h
  exact h

theorem firstTaking_unique {W C D : Type} {P : C → FunctorDef W C D} {n : Nat} {fs : List (C × D)} {f g : C × D} (h1 : FirstTaking P n fs f)
    (h2 : FirstTaking P n fs g) : f = g := by
  obtain ⟨a, b, rfl, h, h'⟩ := h1
  obtain ⟨a', b', e, k, k'⟩ := h2
  induction a generalizing a' with
  | nil =>
    cases a' with
    | nil => simp at e; exact e.1
    | cons y a' => simp at e; exact absurd (by rw [← e.1]; exact h) (k' y (by simp))
  | cons y a ih =>
    cases a' with
    | nil => simp at e; exact absurd (by rw [e.1]; exact k) (h' y (by simp))
    | cons y' a' =>
      simp at e
      exact ih (fun g hg => h' g (by simp [hg])) a' e.2 (fun g hg => k' g (by simp [hg]))

variable {W C D H : Type} {P : C → FunctorDef W C D} {catching : Bool} {T : Table C D} {told : Telling H} {keeps : W → H → Prop}

/-- What has to be shown of a table so that it tells a story. -/
structure Telltale (P : C → FunctorDef W C D) (T : Table C D) (told : Telling H) (keeps : W → H → Prop) : Prop where
  /-- A command that is told is known, and its arguments convert. -/
  known {h h' : H} {i : Input} {r : Option Bytes} {o : Bytes} : told h i h' r o → i.name ≠ [] ∧ ∃ fs f, T.functions i.name = some fs ∧
    FirstTaking P i.arguments.length fs f ∧ conversionErrors (P f.1).params i.arguments = []
  /-- What a function does is told. -/
  does {w w' : W} {h : H} {i : Input} {fs : List (C × D)} {f : C × D} {xs : Args (P f.1).params} {es : List CtxEvent} {e : End (P f.1).R} :
    keeps w h → T.functions i.name = some fs → FirstTaking P i.arguments.length fs f → ConvertTo (P f.1).params i.arguments xs →
    Says f.2 i.namedArguments [] ((P f.1).body xs) w es e w' →
    ∃ r h', e = .ret r ∧ errorsOf es = [] ∧ keeps w' h' ∧ told h i h' ((P f.1).print.map (fun p => p r)) (outputOf es)

theorem Telltale.step (ht : Telltale P T told keeps) {w w' : W} {h : H} (hk : keeps w h) {i : Input} {out : ExecOut}
    (hr : Replies P catching T w i w' out) : ∃ h', keeps w' h' ∧ Upshot told h i h' out := by
  have no : ∀ {es : List Bytes}, es ≠ [] → (¬ ∃ h1 v o, told h i h1 v o) → Upshot told h i h (.ok ⟨i, es, none, []⟩) := fun hes hno =>
    ⟨_, rfl, .inr ⟨hno, rfl, rfl, rfl, hes⟩⟩
  cases hr with
  | noName h0 => exact ⟨h, hk, no (by simp) fun ⟨_, _, _, h1⟩ => (ht.known h1).1 h0⟩
  | unknown _ h0 =>
    refine ⟨h, hk, no (by simp) ?_⟩
    rintro ⟨_, _, _, h1⟩
    obtain ⟨_, fs, f, g, _⟩ := ht.known h1
    rw [h0] at g
    cases g
  | count _ hfs hno =>
    refine ⟨h, hk, no (by simp) ?_⟩
    rintro ⟨_, _, _, h1⟩
    obtain ⟨_, fs, f, g, g2, _⟩ := ht.known h1
    rw [hfs] at g
    cases g
    exact hno f (firstTaking_member g2) (firstTaking_length g2)
  | mismatch _ hfs hf _ he =>
    refine ⟨h, hk, no he ?_⟩
    rintro ⟨_, _, _, h1⟩
    obtain ⟨_, fs, f, g, g2, g3⟩ := ht.known h1
    rw [hfs] at g
    cases g
    cases firstTaking_unique g2 hf
    exact he g3
  | returned _ hfs hf hx hs =>
    obtain ⟨r, h', g1, g2, g3, g4⟩ := ht.does hk hfs hf hx hs
    cases g1
    refine ⟨h', g3, _, rfl, .inl ⟨?_, g2⟩⟩
    simp only [g2, if_true]
    exact g4
  | thrown _ hfs hf hx hs =>
    obtain ⟨r, h', g1, _⟩ := ht.does hk hfs hf hx hs
    cases g1

theorem Telltale.story (ht : Telltale P T told keeps) {d : Delims} {w w' : W} {reqs : List Request} {outs : List ExecOut}
    (h : Talk P catching T d w reqs outs w') : ∀ {h : H}, keeps w h → ∃ h', Chronicle told d h reqs outs h' ∧ keeps w' h' := by
  induction h with
  | nil => exact fun hk => ⟨_, .nil, hk⟩
  | wrong hm _ ih =>
    intro h hk
    obtain ⟨h', g1, g2⟩ := ih hk
    exact ⟨h', .wrong hm.2 g1, g2⟩
  | line hi hr _ ih =>
    intro h hk
    obtain ⟨h1, g1, g2⟩ := ht.step hk hr
    obtain ⟨h', g3, g4⟩ := ih g1
    exact ⟨h', .line hi.2 g2 g3, g4⟩
  | input hr _ ih =>
    intro h hk
    obtain ⟨h1, g1, g2⟩ := ht.step hk hr
    obtain ⟨h', g3, g4⟩ := ih g1
    exact ⟨h', .input g2 g3, g4⟩

end Coil
