import Verif.Spec.Record
import Verif.Proofs.RefusalGrowing

/-!
# All answers: lemmas
-/

namespace Coil
open Spec

variable {W C D H : Type} {P : C → FunctorDef W C D} {T : Table C D} {told : Account H} {pl : Platform} {tiny : Nat → Nat → Bool} {size : Bytes}
  {catching : Bool} {S S' : Standing W C D} {i : Input} {sigs : Signatures} {out : ExecOut}

/-- A command that is understood has a function, and its arguments convert. -/
theorem understood_known (hs : Offers pl tiny size P S.table i.name sigs) (hu : Understood pl tiny size sigs i) : i.name ≠ [] ∧ ∃ fs f,
    S.table.functions i.name = some fs ∧ FirstTaking P i.arguments.length fs f ∧ conversionErrors (P f.1).params i.arguments = [] := by
  obtain ⟨h0, kss, ks, h1, h2, h3⟩ := hu
  obtain ⟨fs, f, g1, g2, g3⟩ := hs.first h1 h2
  exact ⟨h0, fs, f, g1, g2, ((judged_iff g3).1 h3).2⟩

/-- A command that is refused has no such function. -/
theorem declined_unknown (hs : Offers pl tiny size P S.table i.name sigs) {es : List Bytes} (hd : Declined pl tiny size sigs i es) (h0 : i.name ≠ [])
    {fs : List (C × D)} {f : C × D} (hf : S.table.functions i.name = some fs) (ht : FirstTaking P i.arguments.length fs f) :
    conversionErrors (P f.1).params i.arguments ≠ [] := by
  obtain ⟨kss, g1, g2⟩ := hs.fits hf
  obtain ⟨ks, k1, k2⟩ := fits_first g2 ht
  cases hd with
  | noName h => exact absurd h h0
  | unknown _ h =>
    rw [g1] at h
    cases h
  | count _ h h' =>
    rw [g1] at h
    cases h
    obtain ⟨a, b, rfl, k, _⟩ := k1
    exact absurd k (h' _ (by simp))
  | arguments _ h h' h3 h4 =>
    rw [g1] at h
    cases h
    obtain rfl := firstWith_one k1 h'
    rw [((judged_iff k2).1 h3).2]
    exact h4

theorem Accounts.ruling {keeps : W → H → Prop} (ht : Accounts P T told keeps) (hs : HasSignatures pl tiny size P T sigs) {w w' : W}
    {h : H} (hk : keeps w h) (hr : Replies P catching T w i w' out) : ∃ h', keeps w' h' ∧ Ruling pl tiny size told sigs catching h i h' out := by
  have ho : Offers pl tiny size P (⟨T, w⟩ : Standing W C D).table i.name sigs := signatures_of hs i.name
  rcases replies_either hs hr with ⟨es, hd⟩ | hu
  · obtain ⟨rfl, rfl⟩ := (declined_replies hs hd).1 hr
    refine ⟨h, hk, .inr ⟨declined_not hs hd, ?_, rfl, es, hd, rfl⟩⟩
    rintro ⟨h1, o, g⟩
    obtain ⟨g0, fs, f, g1, g2, g3⟩ := ht.known g
    exact declined_unknown ho hd g0 g1 g2 g3
  · obtain ⟨h', hk', g | ⟨hno, _⟩⟩ := ht.step hk hr
    · exact ⟨h', hk', .inl ⟨hu, g⟩⟩
    · exfalso
      obtain ⟨g0, fs, f, g1, g2, g3⟩ := understood_known ho hu
      replace g1 : T.functions i.name = some fs := g1
      cases hr with
      | noName h0 => exact g0 h0
      | unknown _ h0 => rw [g1] at h0; cases h0
      | count _ h0 h1 => rw [g1] at h0; cases h0; exact h1 f (firstTaking_member g2) (firstTaking_length g2)
      | mismatch _ h0 hf _ he => rw [g1] at h0; cases h0; cases firstTaking_unique g2 hf; exact he g3
      | returned _ h2 h3 h4 h5 | thrown _ h2 h3 h4 h5 =>
        obtain ⟨h1, _, g⟩ := ht.does hk h2 h3 h4 h5
        exact hno ⟨h1, _, g⟩

theorem Accounts.record {keeps : W → H → Prop} (ht : Accounts P T told keeps) (hs : HasSignatures pl tiny size P T sigs) {d : Delims} {w w' : W}
    {reqs : List Request} {outs : List ExecOut} (h : Talk P catching T d w reqs outs w') :
    ∀ {h0 : H}, keeps w h0 → ∃ h', Record pl tiny size told (fun _ _ => sigs) catching d h0 reqs outs h' ∧ keeps w' h' := by
  induction h with
  | nil => exact fun hk => ⟨_, .nil, hk⟩
  | wrong hm _ ih =>
    intro h hk
    obtain ⟨h', g1, g2⟩ := ih hk
    exact ⟨h', .wrong hm.2 g1, g2⟩
  | line hi hr _ ih =>
    intro h hk
    obtain ⟨h1, g1, g2⟩ := ht.ruling hs hk hr
    obtain ⟨h', g3, g4⟩ := ih g1
    exact ⟨h', .line hi.2 g2 g3, g4⟩
  | input hr _ ih =>
    intro h hk
    obtain ⟨h1, g1, g2⟩ := ht.ruling hs hk hr
    obtain ⟨h', g3, g4⟩ := ih g1
    exact ⟨h', .input g2 g3, g4⟩

theorem GrowingAccounts.ruling {keeps : Standing W C D → H → Prop} (ht : GrowingAccounts P told keeps) {h : H} (hk : keeps S h)
    (hs : Offers pl tiny size P S.table i.name sigs) (hr : Responds P catching S i S' out) :
    ∃ h', keeps S' h' ∧ Ruling pl tiny size told sigs catching h i h' out := by
  rcases responds_either hs hr with ⟨es, hd⟩ | hu
  · obtain ⟨rfl, rfl⟩ := (declined_responds hs hd).1 hr
    refine ⟨h, hk, .inr ⟨declined_understood hs hd, ?_, rfl, es, hd, rfl⟩⟩
    rintro ⟨h1, o, g⟩
    obtain ⟨g0, fs, f, g1, g2, g3⟩ := ht.known hk g
    exact declined_unknown hs hd g0 g1 g2 g3
  · obtain ⟨h', hk', g | ⟨hno, _⟩⟩ := ht.step hk hr
    · exact ⟨h', hk', .inl ⟨hu, g⟩⟩
    · exfalso
      obtain ⟨g0, fs, f, g1, g2, g3⟩ := understood_known hs hu
      cases hr with
      | noName h0 => exact g0 h0
      | unknown _ h0 => rw [g1] at h0; cases h0
      | count _ h0 h1 => rw [g1] at h0; cases h0; exact h1 f (firstTaking_member g2) (firstTaking_length g2)
      | mismatch _ h0 hf _ he => rw [g1] at h0; cases h0; cases firstTaking_unique g2 hf; exact he g3
      | returned hn h2 h3 h4 h5 | thrown hn h2 h3 h4 h5 =>
        obtain ⟨h1, _, g⟩ := ht.does hk hn h2 h3 h4 h5
        exact hno ⟨h1, _, g⟩

theorem GrowingAccounts.record {keeps : Standing W C D → H → Prop} {offers : H → Bytes → Signatures} (ht : GrowingAccounts P told keeps)
    (ho : ∀ {S : Standing W C D} {h : H}, keeps S h → ∀ n, Offers pl tiny size P S.table n (offers h n)) {d : Delims}
    {reqs : List Request} {outs : List ExecOut} (h : Growth P catching d S reqs outs S') :
    ∀ {h : H}, keeps S h → ∃ h', Record pl tiny size told offers catching d h reqs outs h' ∧ keeps S' h' := by
  induction h with
  | nil => exact fun hk => ⟨_, .nil, hk⟩
  | wrong hm _ ih =>
    intro h hk
    obtain ⟨h', g1, g2⟩ := ih hk
    exact ⟨h', .wrong hm.2 g1, g2⟩
  | line hi hr _ ih =>
    intro h hk
    obtain ⟨h1, g1, g2⟩ := ht.ruling hk (ho hk _) hr
    obtain ⟨h', g3, g4⟩ := ih g1
    exact ⟨h', .line hi.2 g2 g3, g4⟩
  | input hr _ ih =>
    intro h hk
    obtain ⟨h1, g1, g2⟩ := ht.ruling hk (ho hk _) hr
    obtain ⟨h', g3, g4⟩ := ih g1
    exact ⟨h', .input g2 g3, g4⟩

theorem Telltale.accounts {told : Telling H} {keeps : W → H → Prop} (ht : Telltale P T told keeps) : Accounts P T told.account keeps where
  known h := ht.known h.1
  does hk h1 h2 h3 h4 := by
    obtain ⟨r, h', rfl, g2, g3, g4⟩ := ht.does hk h1 h2 h3 h4
    refine ⟨h', g3, ?_, g2, rfl⟩
    simp only [outcomeOf, g2, if_true]
    exact g4

end Coil
