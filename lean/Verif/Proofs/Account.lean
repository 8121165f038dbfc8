import Verif.Spec.Account
import Verif.Proofs.Answered
import Verif.Proofs.Story
import Verif.Proofs.Typed

/-!
# From conversations to accounts
-/

namespace Coil
open Spec

variable {W C D H : Type} {P : C → FunctorDef W C D} {catching : Bool} {T : Table C D} {told : Account H} {keeps : W → H → Prop}

/-- A body does one thing. -/
theorem says_unique {R : Type} {x : D} {l : List Named} {past : List CtxEvent} {p : Prog W C D R} {w : W} {es : List CtxEvent} {e : End R} {w' : W}
    (h : Says x l past p w es e w') : ∀ {es' : List CtxEvent} {e' : End R} {w'' : W}, Says x l past p w es' e' w'' → es' = es ∧ e' = e ∧ w'' = w' := by
  induction h with
  | ret => intro _ _ _ h'; cases h'; exact ⟨rfl, rfl, rfl⟩
  | throw => intro _ _ _ h'; cases h'; exact ⟨rfl, rfl, rfl⟩
  | log _ ih | logline _ ih | reportError _ ih =>
    intro _ _ _ h'
    cases h'
    rename_i h'
    obtain ⟨rfl, rfl, rfl⟩ := ih h'
    exact ⟨rfl, rfl, rfl⟩
  | hasErrors _ ih | named _ ih | get _ ih | set _ ih | captured _ ih =>
    intro _ _ _ h'
    cases h'
    rename_i h'
    exact ih h'
  | setNamed _ _ ih =>
    intro _ _ _ h'
    cases h' with
    | setNamed _ h' =>
      obtain ⟨rfl, rfl, rfl⟩ := ih h'
      exact ⟨rfl, rfl, rfl⟩

/-- The outcome of a function. -/
def outcomeOf {R : Type} (print : Option (R → Bytes)) (es : List CtxEvent) : End R → Outcome
  | .ret r => ⟨errorsOf es, if errorsOf es = [] then print.map (fun p => p r) else none, outputOf es, none⟩
  | .exn e => ⟨errorsOf es, none, outputOf es, some e⟩

/-- What has to be shown of a table so that it gives an account. -/
structure Accounts (P : C → FunctorDef W C D) (T : Table C D) (told : Account H) (keeps : W → H → Prop) : Prop where
  /-- A command that is told is known, and its arguments convert. -/
  known {h h' : H} {i : Input} {o : Outcome} : told h i h' o → i.name ≠ [] ∧ ∃ fs f, T.functions i.name = some fs ∧
    FirstTaking P i.arguments.length fs f ∧ conversionErrors (P f.1).params i.arguments = []
  /-- What a function does is told. -/
  does {w w' : W} {h : H} {i : Input} {fs : List (C × D)} {f : C × D} {xs : Args (P f.1).params} {es : List CtxEvent} {e : End (P f.1).R} :
    keeps w h → T.functions i.name = some fs → FirstTaking P i.arguments.length fs f → ConvertTo (P f.1).params i.arguments xs →
    Says f.2 i.namedArguments [] ((P f.1).body xs) w es e w' → ∃ h', keeps w' h' ∧ told h i h' (outcomeOf (P f.1).print es e)

theorem Accounts.step (ht : Accounts P T told keeps) {w w' : W} {h : H} (hk : keeps w h) {i : Input} {out : ExecOut}
    (hr : Replies P catching T w i w' out) : ∃ h', keeps w' h' ∧ Result told catching h i h' out := by
  have no : ∀ {es : List Bytes}, es ≠ [] → (¬ ∃ h1 o, told h i h1 o) → Result told catching h i h (.ok ⟨i, es, none, []⟩) := fun hes hno =>
    .inr ⟨hno, rfl, _, rfl, rfl, rfl, hes⟩
  cases hr with
  | noName h0 => exact ⟨h, hk, no (by simp) fun ⟨_, _, h1⟩ => (ht.known h1).1 h0⟩
  | unknown _ h0 =>
    refine ⟨h, hk, no (by simp) ?_⟩
    rintro ⟨_, _, h1⟩
    obtain ⟨_, fs, f, g, _⟩ := ht.known h1
    rw [h0] at g
    cases g
  | count _ hfs hno =>
    refine ⟨h, hk, no (by simp) ?_⟩
    rintro ⟨_, _, h1⟩
    obtain ⟨_, fs, f, g, g2, _⟩ := ht.known h1
    rw [hfs] at g
    cases g
    exact hno f (firstTaking_member g2) (firstTaking_length g2)
  | mismatch _ hfs hf _ he =>
    refine ⟨h, hk, no he ?_⟩
    rintro ⟨_, _, h1⟩
    obtain ⟨_, fs, f, g, g2, g3⟩ := ht.known h1
    rw [hfs] at g
    cases g
    cases firstTaking_unique g2 hf
    exact he g3
  | returned _ hfs hf hx hs =>
    obtain ⟨h', g3, g4⟩ := ht.does hk hfs hf hx hs
    exact ⟨h', g3, .inl ⟨_, g4, _, rfl, rfl, rfl, rfl⟩⟩
  | @thrown fs f xs es e _ _ hfs hf hx hs =>
    obtain ⟨h', g3, g4⟩ := ht.does hk hfs hf hx hs
    refine ⟨h', g3, .inl ⟨_, g4, ?_⟩⟩
    cases catching
    · show Outcome.Shows false _ _
      unfold Outcome.Shows
      rfl
    · exact ⟨_, rfl, rfl, rfl, rfl⟩

theorem Accounts.annals (ht : Accounts P T told keeps) {d : Delims} {w w' : W} {reqs : List Request} {outs : List ExecOut}
    (h : Talk P catching T d w reqs outs w') : ∀ {h : H}, keeps w h → ∃ h', Annals told catching d h reqs outs h' ∧ keeps w' h' := by
  induction h with
  | nil => exact fun hk => ⟨_, .nil, hk⟩
  | wrong hm _ ih =>
    intro h hk
    obtain ⟨h', g1, g2⟩ := ih hk
    exact ⟨h', .wrong hm.2 g1, g2⟩
  | line hi hr _ ih =>
    intro h hk
    obtain ⟨h1, g1, g2⟩ := ht.step hk hr
    obtain ⟨h', g3, g4⟩ := ih g1
    exact ⟨h', .line hi.2 g2 g3, g4⟩
  | input hr _ ih =>
    intro h hk
    obtain ⟨h1, g1, g2⟩ := ht.step hk hr
    obtain ⟨h', g3, g4⟩ := ih g1
    exact ⟨h', .input g2 g3, g4⟩

/-- A command has one reply. -/
theorem replies_unique {w w1 w2 : W} {i : Input} {o1 o2 : ExecOut} (h : Replies P catching T w i w1 o1) (h' : Replies P catching T w i w2 o2) :
    w1 = w2 ∧ o1 = o2 := by
  cases h with
  | noName h0 => cases h' <;> first | exact ⟨rfl, rfl⟩ | contradiction
  | unknown h0 h1 =>
    cases h' with
    | noName g => exact absurd g h0
    | unknown => exact ⟨rfl, rfl⟩
    | count _ g | mismatch _ g | returned _ g | thrown _ g => rw [h1] at g; cases g
  | count h0 h1 h2 =>
    cases h' with
    | noName g => exact absurd g h0
    | unknown _ g => rw [h1] at g; cases g
    | count _ g => rw [h1] at g; cases g; exact ⟨rfl, rfl⟩
    | mismatch _ g gf | returned _ g gf | thrown _ g gf =>
      rw [h1] at g; cases g; exact absurd (firstTaking_length gf) (h2 _ (firstTaking_member gf))
  | mismatch h0 h1 h2 h3 h4 =>
    cases h' with
    | noName g => exact absurd g h0
    | unknown _ g => rw [h1] at g; cases g
    | count _ g g2 => rw [h1] at g; cases g; exact absurd (firstTaking_length h2) (g2 _ (firstTaking_member h2))
    | mismatch _ g gf => rw [h1] at g; cases g; cases firstTaking_unique h2 gf; exact ⟨rfl, rfl⟩
    | returned _ g gf gx | thrown _ g gf gx =>
      rw [h1] at g; cases g; cases firstTaking_unique h2 gf; exact absurd (convertTo_defined gx).2 h4
  | returned h0 h1 h2 h3 h4 =>
    cases h' with
    | noName g => exact absurd g h0
    | unknown _ g => rw [h1] at g; cases g
    | count _ g g2 => rw [h1] at g; cases g; exact absurd (firstTaking_length h2) (g2 _ (firstTaking_member h2))
    | mismatch _ g gf _ ge => rw [h1] at g; cases g; cases firstTaking_unique h2 gf; exact absurd (convertTo_defined h3).2 ge
    | returned _ g gf gx gs =>
      rw [h1] at g; cases g; cases firstTaking_unique h2 gf; cases convertTo_unique h3 gx
      obtain ⟨rfl, ge, rfl⟩ := says_unique h4 gs
      cases ge
      exact ⟨rfl, rfl⟩
    | thrown _ g gf gx gs =>
      rw [h1] at g; cases g; cases firstTaking_unique h2 gf; cases convertTo_unique h3 gx
      obtain ⟨_, ge, _⟩ := says_unique h4 gs
      cases ge
  | thrown h0 h1 h2 h3 h4 =>
    cases h' with
    | noName g => exact absurd g h0
    | unknown _ g => rw [h1] at g; cases g
    | count _ g g2 => rw [h1] at g; cases g; exact absurd (firstTaking_length h2) (g2 _ (firstTaking_member h2))
    | mismatch _ g gf _ ge => rw [h1] at g; cases g; cases firstTaking_unique h2 gf; exact absurd (convertTo_defined h3).2 ge
    | returned _ g gf gx gs =>
      rw [h1] at g; cases g; cases firstTaking_unique h2 gf; cases convertTo_unique h3 gx
      obtain ⟨_, ge, _⟩ := says_unique h4 gs
      cases ge
    | thrown _ g gf gx gs =>
      rw [h1] at g; cases g; cases firstTaking_unique h2 gf; cases convertTo_unique h3 gx
      obtain ⟨rfl, ge, rfl⟩ := says_unique h4 gs
      cases ge
      exact ⟨rfl, rfl⟩

/-- A request has one answer. -/
theorem talk_first {cfg : LexCfg} (hp : Proper cfg) {w w1 w2 : W} {r : Request} {rest rest' : List Request} {o o' : ExecOut} {outs outs' : List ExecOut}
    (h : Talk P catching T (delims cfg) w (r :: rest) (o :: outs) w1) (h' : Talk P catching T (delims cfg) w (r :: rest') (o' :: outs') w2) :
    o = o' := by
  cases h with
  | wrong hm _ =>
    cases h' with
    | wrong hm' _ =>
      have := (lexRead_rejects hp hm.2).symm.trans (lexRead_rejects hp hm'.2)
      simp_all
    | line hi _ _ =>
      have := (lexRead_rejects hp hm.2).symm.trans (lexRead_accepts hp hi.2)
      simp at this
  | line hi hr _ =>
    cases h' with
    | wrong hm' _ =>
      have := (lexRead_rejects hp hm'.2).symm.trans (lexRead_accepts hp hi.2)
      simp at this
    | line hi' hr' _ =>
      cases enters_one hp hi.2 hi'.2
      exact (replies_unique hr hr').2
  | input hr _ =>
    cases h' with
    | input hr' _ => exact (replies_unique hr hr').2

/-- The rest of a conversation. -/
theorem talk_from {d : Delims} {w w' : W} {reqs : List Request} {outs : List ExecOut} (h : Talk P catching T d w reqs outs w') :
    ∀ (n : Nat) (o : ExecOut), outs[n]? = some o → ∃ v r rest outs', reqs[n]? = some r ∧ Talk P catching T d v (r :: rest) (o :: outs') w' := by
  induction h with
  | nil => intro n o h; simp at h
  | wrong hm ht ih =>
    intro n o h
    cases n with
    | zero => cases h; exact ⟨_, _, _, _, rfl, .wrong hm ht⟩
    | succ n => exact ih n o h
  | line hi hr ht ih =>
    intro n o h
    cases n with
    | zero => cases h; exact ⟨_, _, _, _, rfl, .line hi hr ht⟩
    | succ n => exact ih n o h
  | input hr ht ih =>
    intro n o h
    cases n with
    | zero => cases h; exact ⟨_, _, _, _, rfl, .input hr ht⟩
    | succ n => exact ih n o h

/-- Without state, the same request always has the same answer. -/
theorem talk_same [Subsingleton W] {cfg : LexCfg} (hp : Proper cfg) {w w' : W} {reqs : List Request} {outs : List ExecOut}
    (h : Talk P catching T (delims cfg) w reqs outs w') {m n : Nat} {o o' : ExecOut} (hm : outs[m]? = some o) (hn : outs[n]? = some o')
    (hr : reqs[m]? = reqs[n]?) : o = o' := by
  obtain ⟨v, r, _, _, h1, h2⟩ := talk_from h m o hm
  obtain ⟨v', r', _, _, h3, h4⟩ := talk_from h n o' hn
  rw [h1, h3] at hr
  cases hr
  cases Subsingleton.elim v v'
  exact talk_first hp h2 h4

/-- A conversation has one course. -/
theorem talk_unique {cfg : LexCfg} (hp : Proper cfg) {w w1 w2 : W} {reqs : List Request} {o1 o2 : List ExecOut}
    (h : Talk P catching T (delims cfg) w reqs o1 w1) (h' : Talk P catching T (delims cfg) w reqs o2 w2) : o1 = o2 ∧ w1 = w2 := by
  induction h generalizing o2 w2 with
  | nil => cases h'; exact ⟨rfl, rfl⟩
  | wrong hm _ ih =>
    cases h' with
    | wrong hm' ht' =>
      have := (lexRead_rejects hp hm.2).symm.trans (lexRead_rejects hp hm'.2)
      obtain ⟨rfl, rfl⟩ := ih ht'
      simp_all
    | line hi _ _ =>
      have := (lexRead_rejects hp hm.2).symm.trans (lexRead_accepts hp hi.2)
      simp at this
  | line hi hr _ ih =>
    cases h' with
    | wrong hm' _ =>
      have := (lexRead_rejects hp hm'.2).symm.trans (lexRead_accepts hp hi.2)
      simp at this
    | line hi' hr' ht' =>
      cases enters_one hp hi.2 hi'.2
      obtain ⟨rfl, rfl⟩ := replies_unique hr hr'
      obtain ⟨rfl, rfl⟩ := ih ht'
      exact ⟨rfl, rfl⟩
  | input hr _ ih =>
    cases h' with
    | input hr' ht' =>
      obtain ⟨rfl, rfl⟩ := replies_unique hr hr'
      obtain ⟨rfl, rfl⟩ := ih ht'
      exact ⟨rfl, rfl⟩

/-- What holds at the beginning and is kept by every command that is told holds at the end. -/
theorem annals_kept {I : H → Prop} {d : Delims} {h h' : H} {reqs : List Request} {outs : List ExecOut} (ha : Annals told catching d h reqs outs h')
    (hk : ∀ r ∈ reqs, ∀ i, Enters d r i → ∀ h h' o, I h → told h i h' o → I h') (h0 : I h) : I h' := by
  induction ha with
  | nil => exact h0
  | wrong _ _ ih => exact ih (fun r hr => hk r (.tail _ hr)) h0
  | line hi hr _ ih =>
    refine ih (fun r hr => hk r (.tail _ hr)) ?_
    rcases hr with ⟨o, ht, _⟩ | ⟨_, rfl, _⟩
    · exact hk _ (.head _) _ hi _ _ _ h0 ht
    · exact h0
  | input hr _ ih =>
    refine ih (fun r hr => hk r (.tail _ hr)) ?_
    rcases hr with ⟨o, ht, _⟩ | ⟨_, rfl, _⟩
    · exact hk _ (.head _) _ rfl _ _ _ h0 ht
    · exact h0

end Coil
