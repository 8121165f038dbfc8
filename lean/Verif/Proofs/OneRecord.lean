import Verif.Props.EnumPrograms
import Verif.Spec.OneRecord
import Verif.Proofs.Record

/-!
# One record: lemmas
-/

namespace Coil
open Spec Fl Floats

variable {H : Type} {told : Account H} {pl : Platform} {tiny : Nat → Nat → Bool} {size : Bytes} {catching : Bool} {sigs : Signatures}

theorem shows_one {o : Outcome} {a b : ExecOut} (h1 : o.Shows catching a) (h2 : o.Shows catching b) : shown a = shown b := by
  obtain ⟨es, v, w, t⟩ := o
  cases t with
  | none =>
    obtain ⟨r, rfl, e1, e2, e3⟩ := h1
    obtain ⟨r', rfl, e1', e2', e3'⟩ := h2
    simp [shown, e1, e2, e3, e1', e2', e3']
  | some e =>
    cases catching with
    | true =>
      obtain ⟨r, rfl, e1, e2, e3⟩ := h1
      obtain ⟨r', rfl, e1', e2', e3'⟩ := h2
      simp [shown, e1, e2, e3, e1', e2', e3']
    | false =>
      have g1 : a = .error e := h1
      have g2 : b = .error e := h2
      rw [g1, g2]

/-- Kinds that are suited by a conversion say one thing of a value; so a command is refused in one way. -/
theorem ruling_one (hf : TellsOne told) {h h1 h2 : H} {i : Input} {a b : ExecOut}
    (hd : ∀ {es es'}, Declined pl tiny size sigs i es → Declined pl tiny size sigs i es' → es = es')
    (g1 : Ruling pl tiny size told sigs catching h i h1 a) (g2 : Ruling pl tiny size told sigs catching h i h2 b) : h1 = h2 ∧ shown a = shown b := by
  rcases g1 with ⟨u1, o, t1, s1⟩ | ⟨u1, _, rfl, es, d1, rfl⟩ <;> rcases g2 with ⟨u2, o', t2, s2⟩ | ⟨u2, _, rfl, es', d2, rfl⟩
  · obtain ⟨rfl, rfl⟩ := hf t1 t2
    exact ⟨rfl, shows_one s1 s2⟩
  · exact absurd u1 u2
  · exact absurd u2 u1
  · rw [hd d1 d2]
    exact ⟨rfl, rfl⟩

theorem record_one {cfg : LexCfg} (hp : Proper cfg) (hf : TellsOne told)
    (hd : ∀ {i es es'}, Declined pl tiny size sigs i es → Declined pl tiny size sigs i es' → es = es')
    {h h1 : H} {reqs : List Request} {o1 : List ExecOut} (g1 : Record pl tiny size told (fun _ _ => sigs) catching (delims cfg) h reqs o1 h1) :
    ∀ {o2 : List ExecOut} {h2 : H}, Record pl tiny size told (fun _ _ => sigs) catching (delims cfg) h reqs o2 h2 → h1 = h2 ∧ o1.map shown = o2.map shown := by
  have clash : ∀ {t m i}, Rejects (delims cfg) t m → Accepts (delims cfg) t i → False := fun a b => by
    have := lexRead_accepts hp b
    rw [lexRead_rejects hp a] at this
    cases this
  induction g1 with
  | nil => intro _ _ g2; cases g2; exact ⟨rfl, rfl⟩
  | wrong hm _ ih =>
    intro _ _ g2
    cases g2 with
    | wrong hm' g =>
      obtain ⟨rfl, e⟩ := ih g
      have := lexRead_rejects hp hm
      rw [lexRead_rejects hp hm'] at this
      cases this
      exact ⟨rfl, by simp [e]⟩
    | line hi => exact (clash hm hi).elim
  | line hi hr _ ih =>
    intro _ _ g2
    cases g2 with
    | wrong hm => exact (clash hm hi).elim
    | line hi' hr' g =>
      obtain rfl := enters_one hp hi hi'
      obtain ⟨rfl, e⟩ := ruling_one hf hd hr hr'
      obtain ⟨rfl, e'⟩ := ih g
      exact ⟨rfl, by simp [e, e']⟩
  | input hr _ ih =>
    intro _ _ g2
    cases g2 with
    | input hr' g =>
      obtain ⟨rfl, e⟩ := ruling_one hf hd hr hr'
      obtain ⟨rfl, e'⟩ := ih g
      exact ⟨rfl, by simp [e, e']⟩

theorem telling_one {told : Telling H} (hf : ∀ {h i h1 r1 o1 h2 r2 o2}, told h i h1 r1 o1 → told h i h2 r2 o2 → h1 = h2 ∧ r1 = r2 ∧ o1 = o2) :
    TellsOne told.account := by
  rintro h i h1 ⟨e1, v1, w1, t1⟩ h2 ⟨e2, v2, w2, t2⟩ ⟨a, a1, a2⟩ ⟨b, b1, b2⟩
  dsimp only at *
  obtain ⟨rfl, rfl, rfl⟩ := hf a b
  subst a1 a2 b1 b2
  exact ⟨rfl, rfl⟩

theorem int_one {t : Bytes} {x y : Int} (h1 : IntText pl t x) (h2 : IntText pl t y) : x = y := by
  have e1 := int_reads.2 ⟨t, rfl, h1⟩
  have e2 := int_reads.2 ⟨t, rfl, h2⟩
  simpa using e1.symm.trans e2

theorem word_one {t : Bytes} {x y : Bool} (h1 : BoolWord t x) (h2 : BoolWord t y) : x = y := by
  have e1 := (bool_reads (pl := linux64)).2 ⟨t, rfl, h1⟩
  have e2 := (bool_reads (pl := linux64)).2 ⟨t, rfl, h2⟩
  simpa using e1.symm.trans e2

theorem index_one {t : Bytes} {x y : Int} (h1 : IndexText t x) (h2 : IndexText t y) : x = y := by
  have e1 := (size_reads (pl := linux64) (sz := .ulong) (.inr ⟨rfl, rfl⟩)).2 ⟨t, rfl, h1⟩
  have e2 := (size_reads (pl := linux64) (sz := .ulong) (.inr ⟨rfl, rfl⟩)).2 ⟨t, rfl, h2⟩
  simpa using e1.symm.trans e2

/-! ## The variadic example -/

theorem id_one {t : Bytes} {x y : Int} (h1 : IdText pl t x) (h2 : IdText pl t y) : x = y := by
  simpa using (idText_iff.2 h1).symm.trans (idText_iff.2 h2)

theorem first_one {A : Type} {Q : A → Prop} {pre post pre' post' : List A} {e e' : A} (h : pre ++ e :: post = pre' ++ e' :: post') (h1 : Q e) (h2 : Q e')
    (h3 : ∀ x ∈ pre, ¬ Q x) (h4 : ∀ x ∈ pre', ¬ Q x) : pre = pre' ∧ e = e' ∧ post = post' := by
  induction pre generalizing pre' with
  | nil =>
    cases pre' with
    | nil => simpa using h
    | cons y p => simp at h; exact absurd (h.1 ▸ h1) (h4 y (by simp))
  | cons x q ih =>
    cases pre' with
    | nil => simp at h; exact absurd (h.1 ▸ h2) (h3 x (by simp))
    | cons y p =>
      simp at h
      obtain ⟨rfl, r2, r3⟩ := ih h.2 (fun x hx => h3 x (by simp [hx])) (fun x hx => h4 x (by simp [hx]))
      exact ⟨by rw [h.1], r2, r3⟩

theorem refers_one {t : Bytes} {h pre pre' post post' : List Entity} {e e' : Entity} (h1 : Refers pl t h pre e post) (h2 : Refers pl t h pre' e' post') :
    pre = pre' ∧ e = e' ∧ post = post' := by
  generalize hl : h = l at h2
  cases h1 with
  | id a b c =>
    cases h2 with
    | id a' b' c' =>
      obtain rfl := id_one a a'
      exact first_one (Q := fun x => x.id = _) hl b b' c c'
    | name a' => exact absurd ⟨_, a⟩ a'
  | name a b c =>
    cases h2 with
    | id a' => exact absurd ⟨_, a'⟩ a
    | name a' b' c' => exact first_one (Q := fun x => x.name = _) hl b b' c c'

theorem roster_inv {h h' : List Entity} {i : Input} {o : Outcome} (t : RosterTold pl h i h' o) :
    (i.name = lit "entities.add" ∧ ∃ s z n, i.arguments = [⟨[s]⟩, ⟨[n]⟩] ∧ IdText pl s z ∧ h' = h ++ [⟨z, n⟩] ∧ o = .good none []) ∨
    (i.name = lit "entities.list" ∧ h' = h ∧ o = .good none (entitiesText h)) ∨
    (i.name = lit "entities.rename" ∧ ∃ v n, i.arguments = [v, ⟨[n]⟩] ∧
      ((∃ t pre e post, v = ⟨[t]⟩ ∧ Refers pl t h pre e post ∧ h' = pre ++ ⟨e.id, n⟩ :: post ∧ o = .good none []) ∨
       (∃ t, v = ⟨[t]⟩ ∧ (¬ ∃ pre e post, Refers pl t h pre e post) ∧ h' = h ∧ o = .bad [lit "Failed to find entity '" ++ t ++ lit "'"]) ∨
       (v.subvalues.length ≠ 1 ∧ h' = h ∧ o = .bad (lit "Unknown type of 'entity'" :: [IntType.ulong.name pl, lit "string"].map fun type =>
          cannotConvertBecause (upToNul (joined v.subvalues)) type (wrongSubvalues 1 v.subvalues.length))))) := by
  cases t with
  | add a => exact .inl ⟨rfl, _, _, _, rfl, a, rfl, rfl⟩
  | list => exact .inr (.inl ⟨rfl, rfl, rfl⟩)
  | rename a => exact .inr (.inr ⟨rfl, _, _, rfl, .inl ⟨_, _, _, _, rfl, a, rfl, rfl⟩⟩)
  | lost a => exact .inr (.inr ⟨rfl, _, _, rfl, .inr (.inl ⟨_, rfl, a, rfl, rfl⟩)⟩)
  | parts a => exact .inr (.inr ⟨rfl, _, _, rfl, .inr (.inr ⟨a, rfl, rfl⟩)⟩)

theorem roster_one : TellsOne (RosterTold pl) := by
  intro h i h1 o1 h2 o2 t1 t2
  have n1 : lit "entities.add" ≠ lit "entities.list" := by decide +kernel
  have n2 : lit "entities.add" ≠ lit "entities.rename" := by decide +kernel
  have n3 : lit "entities.list" ≠ lit "entities.rename" := by decide +kernel
  have i1 := roster_inv t1
  have i2 := roster_inv t2
  clear t1 t2
  generalize lit "entities.add" = a1 at *
  generalize lit "entities.list" = a2 at *
  generalize lit "entities.rename" = a3 at *
  generalize lit "Failed to find entity '" = c1 at *
  generalize lit "Unknown type of 'entity'" = c2 at *
  generalize lit "string" = c3 at *
  generalize lit "'" = c4 at *
  rcases i1 with ⟨e, i1⟩ | ⟨e, i1⟩ | ⟨e, i1⟩ <;> rcases i2 with ⟨e', i2⟩ | ⟨e', i2⟩ | ⟨e', i2⟩ <;> rw [e] at e' <;>
    first
    | exact absurd e' n1
    | exact absurd e' n2
    | exact absurd e' n3
    | exact absurd e'.symm n1
    | exact absurd e'.symm n2
    | exact absurd e'.symm n3
    | skip
  · obtain ⟨s, z, n, a, b, rfl, rfl⟩ := i1
    obtain ⟨s', z', n', a', b', rfl, rfl⟩ := i2
    cases a.symm.trans a'
    rw [id_one b b']
    exact ⟨rfl, rfl⟩
  · obtain ⟨rfl, rfl⟩ := i1
    obtain ⟨rfl, rfl⟩ := i2
    exact ⟨rfl, rfl⟩
  · obtain ⟨v, n, a, i1⟩ := i1
    obtain ⟨v', n', a', i2⟩ := i2
    cases a.symm.trans a'
    rcases i1 with ⟨t, p, x, q, rfl, k, rfl, rfl⟩ | ⟨t, rfl, k, rfl, rfl⟩ | ⟨k, rfl, rfl⟩ <;>
      rcases i2 with ⟨t', p', x', q', l, k', rfl, rfl⟩ | ⟨t', l, k', rfl, rfl⟩ | ⟨k', rfl, rfl⟩
    · cases l
      obtain ⟨rfl, rfl, rfl⟩ := refers_one k k'
      exact ⟨rfl, rfl⟩
    · cases l
      exact absurd ⟨_, _, _, k⟩ k'
    · exact absurd rfl k'
    · cases l
      exact absurd ⟨_, _, _, k'⟩ k
    · cases l
      exact ⟨rfl, rfl⟩
    · exact absurd rfl k'
    · subst l
      exact absurd rfl k
    · subst l
      exact absurd rfl k
    · exact ⟨rfl, rfl⟩

/-! ## The basic example -/

theorem basic_inv {nan : Fl → Fl → Bool} {h h' : Nat} {i : Input} {r : Option Bytes} {o : Bytes} (t : BasicTold pl tiny nan h i h' r o) :
    (i.name = lit "hello" ∧ h' = h + 1 ∧ r = none ∧ o = []) ∨
    (i.name = lit "hello_with_context" ∧ h' = h ∧ r = none ∧ o = greetingText) ∨
    (i.name = lit "print_repeated" ∧ ∃ s t k, i.arguments = [⟨[s]⟩, ⟨[t]⟩] ∧ IndexText t k ∧ h' = h ∧ r = none ∧ o = (List.replicate k.toNat s).flatten) ∨
    (i.name = lit "print_quoted" ∧ ∃ s, i.arguments = [⟨[s]⟩] ∧ h' = h ∧ r = none ∧ o = [39] ++ upToNul s ++ [39, 10]) ∨
    (i.name = lit "invert" ∧ ∃ t b, i.arguments = [⟨[t]⟩] ∧ BoolWord t b ∧ h' = h ∧ r = some (if b then lit "false" else lit "true") ∧ o = []) ∨
    (i.name = lit "add" ∧ ∃ s t x y, i.arguments = [⟨[s]⟩, ⟨[t]⟩] ∧ ReadsFloat tiny s x ∧ ReadsFloat tiny t y ∧ h' = h ∧
      r = some ((singleConv tiny).toString (Fl.add .single nan x y)) ∧ o = []) ∨
    (i.name = lit "concat" ∧ ∃ s t, i.arguments = [⟨[s]⟩, ⟨[t]⟩] ∧ h' = h ∧ r = some (s ++ t) ∧ o = []) ∨
    (∃ who t z, (i.name, who) ∈ speakers ∧ i.arguments = [⟨[t]⟩] ∧ IntText pl t z ∧ h' = h ∧ r = some (lit "I am a " ++ who ++ lit ": " ++ intDec z) ∧ o = []) ∨
    (∃ m t z, (i.name, m) ∈ scalers ∧ i.arguments = [⟨[t]⟩] ∧ IntText pl t z ∧ h' = h ∧ r = some (intDec (m * z)) ∧ o = []) := by
  cases t with
  | hello => exact .inl ⟨rfl, rfl, rfl, rfl⟩
  | greeting => exact .inr (.inl ⟨rfl, rfl, rfl, rfl⟩)
  | repeated a => exact .inr (.inr (.inl ⟨rfl, _, _, _, rfl, a, rfl, rfl, rfl⟩))
  | quoted => exact .inr (.inr (.inr (.inl ⟨rfl, _, rfl, rfl, rfl, rfl⟩)))
  | invert a => exact .inr (.inr (.inr (.inr (.inl ⟨rfl, _, _, rfl, a, rfl, rfl, rfl⟩))))
  | add a b => exact .inr (.inr (.inr (.inr (.inr (.inl ⟨rfl, _, _, _, _, rfl, a, b, rfl, rfl, rfl⟩)))))
  | concat => exact .inr (.inr (.inr (.inr (.inr (.inr (.inl ⟨rfl, _, _, rfl, rfl, rfl, rfl⟩))))))
  | speak a b => exact .inr (.inr (.inr (.inr (.inr (.inr (.inr (.inl ⟨_, _, _, a, rfl, b, rfl, rfl, rfl⟩)))))))
  | scale a b _ => exact .inr (.inr (.inr (.inr (.inr (.inr (.inr (.inr ⟨_, _, _, a, rfl, b, rfl, rfl, rfl⟩)))))))

/-- A number for each name: which of the nine. -/
def basicRank (n : Bytes) : Nat :=
  if n = lit "hello" then 0 else if n = lit "hello_with_context" then 1 else if n = lit "print_repeated" then 2 else if n = lit "print_quoted" then 3
  else if n = lit "invert" then 4 else if n = lit "add" then 5 else if n = lit "concat" then 6
  else if n ∈ speakers.map (·.1) then 7 else 8

theorem speakers_rank : ∀ p ∈ speakers, basicRank p.1 = 7 := by decide +kernel
theorem scalers_rank : ∀ p ∈ scalers, basicRank p.1 = 8 := by decide +kernel
theorem speakers_one : ∀ p ∈ speakers, ∀ q ∈ speakers, p.1 = q.1 → p.2 = q.2 := by decide +kernel
theorem scalers_one : ∀ p ∈ scalers, ∀ q ∈ scalers, p.1 = q.1 → p.2 = q.2 := by decide +kernel
theorem basic_ranks : [lit "hello", lit "hello_with_context", lit "print_repeated", lit "print_quoted", lit "invert", lit "add", lit "concat"].map basicRank =
    [0, 1, 2, 3, 4, 5, 6] := by decide +kernel

theorem basic_one {nan : Fl → Fl → Bool} : TellsOne (BasicTold pl tiny nan).account := by
  refine telling_one ?_
  intro h i h1 r1 o1 h2 r2 o2 t1 t2
  have hr := basic_ranks
  simp only [List.map_cons, List.map_nil, List.cons.injEq, and_true] at hr
  obtain ⟨k0, k1, k2, k3, k4, k5, k6⟩ := hr
  have key : ∀ {h' r o}, BasicTold pl tiny nan h i h' r o →
      (basicRank i.name = 0 ∧ h' = h + 1 ∧ r = none ∧ o = []) ∨
      (basicRank i.name = 1 ∧ h' = h ∧ r = none ∧ o = greetingText) ∨
      (basicRank i.name = 2 ∧ ∃ s t k, i.arguments = [⟨[s]⟩, ⟨[t]⟩] ∧ IndexText t k ∧ h' = h ∧ r = none ∧ o = (List.replicate k.toNat s).flatten) ∨
      (basicRank i.name = 3 ∧ ∃ s, i.arguments = [⟨[s]⟩] ∧ h' = h ∧ r = none ∧ o = [39] ++ upToNul s ++ [39, 10]) ∨
      (basicRank i.name = 4 ∧ ∃ t b, i.arguments = [⟨[t]⟩] ∧ BoolWord t b ∧ h' = h ∧ r = some (if b then lit "false" else lit "true") ∧ o = []) ∨
      (basicRank i.name = 5 ∧ ∃ s t x y, i.arguments = [⟨[s]⟩, ⟨[t]⟩] ∧ ReadsFloat tiny s x ∧ ReadsFloat tiny t y ∧ h' = h ∧
        r = some ((singleConv tiny).toString (Fl.add .single nan x y)) ∧ o = []) ∨
      (basicRank i.name = 6 ∧ ∃ s t, i.arguments = [⟨[s]⟩, ⟨[t]⟩] ∧ h' = h ∧ r = some (s ++ t) ∧ o = []) ∨
      (basicRank i.name = 7 ∧ ∃ who t z, (i.name, who) ∈ speakers ∧ i.arguments = [⟨[t]⟩] ∧ IntText pl t z ∧ h' = h ∧
        r = some (lit "I am a " ++ who ++ lit ": " ++ intDec z) ∧ o = []) ∨
      (basicRank i.name = 8 ∧ ∃ m t z, (i.name, m) ∈ scalers ∧ i.arguments = [⟨[t]⟩] ∧ IntText pl t z ∧ h' = h ∧ r = some (intDec (m * z)) ∧ o = []) := by
    intro h' r o t
    rcases basic_inv t with ⟨e, g⟩ | ⟨e, g⟩ | ⟨e, g⟩ | ⟨e, g⟩ | ⟨e, g⟩ | ⟨e, g⟩ | ⟨e, g⟩ | ⟨w, t, z, e, g⟩ | ⟨w, t, z, e, g⟩
    · exact .inl ⟨e ▸ k0, g⟩
    · exact .inr (.inl ⟨e ▸ k1, g⟩)
    · exact .inr (.inr (.inl ⟨e ▸ k2, g⟩))
    · exact .inr (.inr (.inr (.inl ⟨e ▸ k3, g⟩)))
    · exact .inr (.inr (.inr (.inr (.inl ⟨e ▸ k4, g⟩))))
    · exact .inr (.inr (.inr (.inr (.inr (.inl ⟨e ▸ k5, g⟩)))))
    · exact .inr (.inr (.inr (.inr (.inr (.inr (.inl ⟨e ▸ k6, g⟩))))))
    · exact .inr (.inr (.inr (.inr (.inr (.inr (.inr (.inl ⟨speakers_rank _ e, w, t, z, e, g⟩)))))))
    · exact .inr (.inr (.inr (.inr (.inr (.inr (.inr (.inr ⟨scalers_rank _ e, w, t, z, e, g⟩)))))))
  have i1 := key t1
  have i2 := key t2
  clear key t1 t2 k0 k1 k2 k3 k4 k5 k6
  generalize basicRank i.name = n at *
  generalize greetingText = c1 at *
  generalize lit "I am a " = c2 at *
  generalize lit ": " = c3 at *
  generalize lit "false" = c4 at *
  generalize lit "true" = c5 at *
  rcases i1 with ⟨e, i1⟩ | ⟨e, i1⟩ | ⟨e, i1⟩ | ⟨e, i1⟩ | ⟨e, i1⟩ | ⟨e, i1⟩ | ⟨e, i1⟩ | ⟨e, i1⟩ | ⟨e, i1⟩ <;> subst e <;>
    rcases i2 with ⟨e', i2⟩ | ⟨e', i2⟩ | ⟨e', i2⟩ | ⟨e', i2⟩ | ⟨e', i2⟩ | ⟨e', i2⟩ | ⟨e', i2⟩ | ⟨e', i2⟩ | ⟨e', i2⟩ <;>
    first | (exfalso; omega) | skip
  · obtain ⟨rfl, rfl, rfl⟩ := i1
    obtain ⟨rfl, rfl, rfl⟩ := i2
    exact ⟨rfl, rfl, rfl⟩
  · obtain ⟨rfl, rfl, rfl⟩ := i1
    obtain ⟨rfl, rfl, rfl⟩ := i2
    exact ⟨rfl, rfl, rfl⟩
  · obtain ⟨s, t, k, a, b, rfl, rfl, rfl⟩ := i1
    obtain ⟨s', t', k', a', b', rfl, rfl, rfl⟩ := i2
    cases a.symm.trans a'
    rw [index_one b b']
    exact ⟨rfl, rfl, rfl⟩
  · obtain ⟨s, a, rfl, rfl, rfl⟩ := i1
    obtain ⟨s', a', rfl, rfl, rfl⟩ := i2
    cases a.symm.trans a'
    exact ⟨rfl, rfl, rfl⟩
  · obtain ⟨t, b, a, c, rfl, rfl, rfl⟩ := i1
    obtain ⟨t', b', a', c', rfl, rfl, rfl⟩ := i2
    cases a.symm.trans a'
    rw [word_one c c']
    exact ⟨rfl, rfl, rfl⟩
  · obtain ⟨s, t, x, y, a, b, c, rfl, rfl, rfl⟩ := i1
    obtain ⟨s', t', x', y', a', b', c', rfl, rfl, rfl⟩ := i2
    cases a.symm.trans a'
    rw [readsFloat_one b b', readsFloat_one c c']
    exact ⟨rfl, rfl, rfl⟩
  · obtain ⟨s, t, a, rfl, rfl, rfl⟩ := i1
    obtain ⟨s', t', a', rfl, rfl, rfl⟩ := i2
    cases a.symm.trans a'
    exact ⟨rfl, rfl, rfl⟩
  · obtain ⟨w, t, z, m, a, b, rfl, rfl, rfl⟩ := i1
    obtain ⟨w', t', z', m', a', b', rfl, rfl, rfl⟩ := i2
    cases a.symm.trans a'
    have := speakers_one _ m _ m' rfl
    dsimp only at this
    rw [int_one b b', this]
    exact ⟨rfl, rfl, rfl⟩
  · obtain ⟨w, t, z, m, a, b, rfl, rfl, rfl⟩ := i1
    obtain ⟨w', t', z', m', a', b', rfl, rfl, rfl⟩ := i2
    cases a.symm.trans a'
    have := scalers_one _ m _ m' rfl
    dsimp only at this
    rw [int_one b b', this]
    exact ⟨rfl, rfl, rfl⟩

/-! ## The compound example -/

theorem swarm_tells {nan : Fl → Fl → Bool} : TellsOne (SwarmTold tiny nan).account := telling_one swarm_one

/-! ## The enums example -/

theorem ability_one {t : Bytes} {x y : Int} (h1 : ScopedText pl abilities t x) (h2 : ScopedText pl abilities t y) : x = y := by
  simpa using (ability_reads.2 ⟨t, rfl, h1⟩).symm.trans (ability_reads.2 ⟨t, rfl, h2⟩)

theorem type_one {t : Bytes} {x y : Int} (h1 : ScopedText pl variableTypes t x) (h2 : ScopedText pl variableTypes t y) : x = y := by
  simpa using (type_reads.2 ⟨t, rfl, h1⟩).symm.trans (type_reads.2 ⟨t, rfl, h2⟩)

theorem mode_one {u : IntType} {t : Bytes} {x y : Int} (h1 : ModeText pl u t x) (h2 : ModeText pl u t y) : x = y := by
  simpa using (mode_reads.2 ⟨t, rfl, h1⟩).symm.trans (mode_reads.2 ⟨t, rfl, h2⟩)

theorem shown_one {cs : List (Bytes × Int)} (hc : ∀ p ∈ cs, ∀ q ∈ cs, p.2 = q.2 → p.1 = q.1) {x : Int} {t t' : Bytes} (h1 : Shown cs x t)
    (h2 : Shown cs x t') : t = t' := by
  rcases h1 with h1 | ⟨rfl, h1⟩ <;> rcases h2 with h2 | ⟨rfl, h2⟩
  · exact hc _ h1 _ h2 rfl
  · exact absurd h1 (h2 _)
  · exact absurd h2 (h1 _)
  · rfl

theorem abilities_apart : ∀ p ∈ abilities, ∀ q ∈ abilities, p.2 = q.2 → p.1 = q.1 := by decide +kernel
theorem resetModes_apart : ∀ p ∈ resetModes, ∀ q ∈ resetModes, p.2 = q.2 → p.1 = q.1 := by decide +kernel
theorem variableTypes_apart : ∀ p ∈ variableTypes, ∀ q ∈ variableTypes, p.2 = q.2 → p.1 = q.1 := by decide +kernel

theorem enum_inv {u : IntType} {h h' : List Choice} {i : Input} {r : Option Bytes} {o : Bytes} (t : EnumTold pl u h i h' r o) : o = [] ∧
    ((i.name = lit "abilities.set_ability" ∧ ∃ s t a m, i.arguments = [⟨[s]⟩, ⟨[t]⟩] ∧ ScopedText pl abilities s a ∧ ModeText pl u t m ∧
        h' = h ++ [.ability a m] ∧ r = none) ∨
     (i.name = lit "abilities.get_ability" ∧ ∃ t, Shown abilities (abilityAfter h).1 t ∧ h' = h ∧ r = some t) ∨
     (i.name = lit "abilities.get_reset_mode" ∧ ∃ t, Shown resetModes (abilityAfter h).2 t ∧ h' = h ∧ r = some t) ∨
     (i.name = lit "variable_type" ∧ ((∃ t, i.arguments = [] ∧ Shown variableTypes (typeAfter h) t ∧ h' = h ∧ r = some t) ∨
        ∃ s x t, i.arguments = [⟨[s]⟩] ∧ ScopedText pl variableTypes s x ∧ Shown variableTypes x t ∧ h' = h ++ [.type x] ∧ r = some t))) := by
  cases t with
  | choose a b => exact ⟨rfl, .inl ⟨rfl, _, _, _, _, rfl, a, b, rfl, rfl⟩⟩
  | ability a => exact ⟨rfl, .inr (.inl ⟨rfl, _, a, rfl, rfl⟩)⟩
  | mode a => exact ⟨rfl, .inr (.inr (.inl ⟨rfl, _, a, rfl, rfl⟩))⟩
  | type a => exact ⟨rfl, .inr (.inr (.inr ⟨rfl, .inl ⟨_, rfl, a, rfl, rfl⟩⟩))⟩
  | assign a b => exact ⟨rfl, .inr (.inr (.inr ⟨rfl, .inr ⟨_, _, _, rfl, a, b, rfl, rfl⟩⟩))⟩

theorem enum_one {u : IntType} : TellsOne (EnumTold pl u).account := by
  refine telling_one ?_
  intro h i h1 r1 o1 h2 r2 o2 t1 t2
  have nd : [lit "abilities.set_ability", lit "abilities.get_ability", lit "abilities.get_reset_mode", lit "variable_type"].Nodup := by decide +kernel
  obtain ⟨rfl, i1⟩ := enum_inv t1
  obtain ⟨rfl, i2⟩ := enum_inv t2
  clear t1 t2
  generalize lit "abilities.set_ability" = n1 at *
  generalize lit "abilities.get_ability" = n2 at *
  generalize lit "abilities.get_reset_mode" = n3 at *
  generalize lit "variable_type" = n4 at *
  simp only [List.nodup_cons, List.mem_cons, List.not_mem_nil, or_false, not_or] at nd
  rcases i1 with ⟨e, i1⟩ | ⟨e, i1⟩ | ⟨e, i1⟩ | ⟨e, i1⟩ <;> rcases i2 with ⟨e', i2⟩ | ⟨e', i2⟩ | ⟨e', i2⟩ | ⟨e', i2⟩ <;> rw [e] at e' <;>
    first
    | (exfalso; revert nd; simp [e']; done)
    | skip
  all_goals clear nd e e'
  · obtain ⟨s, t, a, m, g, g1, g2, rfl, rfl⟩ := i1
    obtain ⟨s', t', a', m', g', g1', g2', rfl, rfl⟩ := i2
    cases g.symm.trans g'
    rw [ability_one g1 g1', mode_one g2 g2']
    exact ⟨rfl, rfl, rfl⟩
  · obtain ⟨t, g, rfl, rfl⟩ := i1
    obtain ⟨t', g', rfl, rfl⟩ := i2
    rw [shown_one abilities_apart g g']
    exact ⟨rfl, rfl, rfl⟩
  · obtain ⟨t, g, rfl, rfl⟩ := i1
    obtain ⟨t', g', rfl, rfl⟩ := i2
    rw [shown_one resetModes_apart g g']
    exact ⟨rfl, rfl, rfl⟩
  · rcases i1 with ⟨t, a, g, rfl, rfl⟩ | ⟨s, x, t, a, b, g, rfl, rfl⟩ <;> rcases i2 with ⟨t', a', g', rfl, rfl⟩ | ⟨s', x', t', a', b', g', rfl, rfl⟩ <;>
      cases a.symm.trans a'
    · rw [shown_one variableTypes_apart g g']
      exact ⟨rfl, rfl, rfl⟩
    · obtain rfl := type_one b b'
      rw [shown_one variableTypes_apart g g']
      exact ⟨rfl, rfl, rfl⟩

/-! ## The properties example -/

theorem truncates_one {x : Fl} {m n : Nat} (h1 : Truncates x m) (h2 : Truncates x n) : m = n := by
  simpa using (toUnsigned_iff.2 h1).symm.trans (toUnsigned_iff.2 h2)

theorem resized_one {xs ys zs : List Int} {n : Nat} (h1 : Resized xs n ys) (h2 : Resized xs n zs) : ys = zs := by
  refine List.ext_getElem? fun k => ?_
  by_cases hk : k < n
  · rw [h1.2 k hk, h2.2 k hk]
  · rw [List.getElem?_eq_none (by rw [h1.1]; omega), List.getElem?_eq_none (by rw [h2.1]; omega)]

section Properties

variable {refuse : Nat → Option Exn} {nan : Fl → Fl → Bool} {hypot : Fl → Fl → Fl}

theorem prop_inv {h h' : PropWorld} {i : Input} {o : Outcome} (t : PropTold refuse tiny nan hypot h i h' o) :
    (i.name = lit "window.print_size" ∧ h' = h ∧ o = .good none (natDec h.window.width ++ lit "x" ++ natDec h.window.height ++ lit "\n")) ∨
    (i.name = lit "window.aspect" ∧ ((i.arguments = [] ∧ h' = h ∧ o = .good (some ((singleConv tiny).toString (h.window.aspect nan))) []) ∨
      ∃ t x n, i.arguments = [⟨[t]⟩] ∧ ReadsFloat tiny t x ∧ Truncates (aspectWidth nan h.window x) n ∧ h' = ⟨⟨n, h.window.height⟩, h.data⟩ ∧
        o = .good (some ((singleConv tiny).toString (Window.aspect nan ⟨n, h.window.height⟩))) [])) ∨
    (i.name = lit "window.diagonal" ∧ ((i.arguments = [] ∧ h' = h ∧ o = .good (some ((singleConv tiny).toString (h.window.diagonal nan hypot))) []) ∨
      ∃ t x m n, i.arguments = [⟨[t]⟩] ∧ ReadsFloat tiny t x ∧ Truncates (scaledSide nan hypot h.window h.window.width x) m ∧
        Truncates (scaledSide nan hypot h.window h.window.height x) n ∧ h' = ⟨⟨m, n⟩, h.data⟩ ∧
        o = .good (some ((singleConv tiny).toString (Window.diagonal nan hypot ⟨m, n⟩))) [])) ∨
    (i.name = lit "window.readonly_aspect" ∧ h' = h ∧ ((i.arguments = [] ∧ o = .good (some ((singleConv tiny).toString (h.window.aspect nan))) []) ∨
      (i.arguments ≠ [] ∧ o = .bad [lit "This property is read-only"]))) ∨
    (i.name = lit "window.readonly_diagonal" ∧ h' = h ∧
      ((i.arguments = [] ∧ o = .good (some ((singleConv tiny).toString (h.window.diagonal nan hypot))) []) ∨
      (i.arguments ≠ [] ∧ o = .bad [lit "This property is read-only"]))) ∨
    (i.name = lit "data" ∧ h' = h ∧ o = .good none (lit "{ " ++ (h.data.map fun x => intDec x ++ lit " ").flatten ++ lit "}")) ∨
    (i.name = lit "data.size" ∧ ((i.arguments = [] ∧ h' = h ∧ o = .good (some (natDec h.data.length)) []) ∨
      ∃ t, ∃ n : Nat, i.arguments = [⟨[t]⟩] ∧ IndexText t (n : Int) ∧
        ((∃ ys, (n ≤ h.data.length ∨ refuse n = none) ∧ Resized h.data n ys ∧ h' = ⟨h.window, ys⟩ ∧ o = .good (some (natDec n)) []) ∨
         ∃ e, h.data.length < n ∧ refuse n = some e ∧ h' = h ∧ o = ⟨[], none, [], some e⟩))) := by
  cases t with
  | printSize => exact .inl ⟨rfl, rfl, rfl⟩
  | aspect => exact .inr (.inl ⟨rfl, .inl ⟨rfl, rfl, rfl⟩⟩)
  | setAspect a b c => subst c; exact .inr (.inl ⟨rfl, .inr ⟨_, _, _, rfl, a, b, rfl, rfl⟩⟩)
  | diagonal => exact .inr (.inr (.inl ⟨rfl, .inl ⟨rfl, rfl, rfl⟩⟩))
  | setDiagonal a b c d => subst d; exact .inr (.inr (.inl ⟨rfl, .inr ⟨_, _, _, _, rfl, a, b, c, rfl, rfl⟩⟩))
  | fixed hn =>
    simp only [fixedNames, List.mem_cons, List.not_mem_nil, or_false, Prod.mk.injEq] at hn
    rcases hn with ⟨rfl, rfl⟩ | ⟨rfl, rfl⟩
    · exact .inr (.inr (.inr (.inl ⟨rfl, rfl, .inl ⟨rfl, rfl⟩⟩)))
    · exact .inr (.inr (.inr (.inr (.inl ⟨rfl, rfl, .inl ⟨rfl, rfl⟩⟩))))
  | fix hn _ =>
    simp only [fixedNames, List.mem_cons, List.not_mem_nil, or_false, Prod.mk.injEq] at hn
    rcases hn with ⟨rfl, rfl⟩ | ⟨rfl, rfl⟩
    · exact .inr (.inr (.inr (.inl ⟨rfl, rfl, .inr ⟨by simp, rfl⟩⟩)))
    · exact .inr (.inr (.inr (.inr (.inl ⟨rfl, rfl, .inr ⟨by simp, rfl⟩⟩))))
  | data => exact .inr (.inr (.inr (.inr (.inr (.inl ⟨rfl, rfl, rfl⟩)))))
  | size => exact .inr (.inr (.inr (.inr (.inr (.inr ⟨rfl, .inl ⟨rfl, rfl, rfl⟩⟩)))))
  | setSize a b c => exact .inr (.inr (.inr (.inr (.inr (.inr ⟨rfl, .inr ⟨_, _, rfl, a, .inl ⟨_, b, c, rfl, rfl⟩⟩⟩)))))
  | refused a b c => exact .inr (.inr (.inr (.inr (.inr (.inr ⟨rfl, .inr ⟨_, _, rfl, a, .inr ⟨_, b, c, rfl, rfl⟩⟩⟩)))))

theorem prop_one : TellsOne (PropTold refuse tiny nan hypot) := by
  intro h i h1 o1 h2 o2 t1 t2
  have nd : [lit "window.print_size", lit "window.aspect", lit "window.diagonal", lit "window.readonly_aspect", lit "window.readonly_diagonal", lit "data",
    lit "data.size"].Nodup := by decide +kernel
  have i1 := prop_inv t1
  have i2 := prop_inv t2
  clear t1 t2
  generalize lit "window.print_size" = n1 at *
  generalize lit "window.aspect" = n2 at *
  generalize lit "window.diagonal" = n3 at *
  generalize lit "window.readonly_aspect" = n4 at *
  generalize lit "window.readonly_diagonal" = n5 at *
  generalize lit "data" = n6 at *
  generalize lit "data.size" = n7 at *
  generalize lit "This property is read-only" = c1 at *
  generalize lit "{ " = c2 at *
  generalize lit " " = c3 at *
  generalize lit "}" = c4 at *
  generalize lit "x" = c5 at *
  generalize lit "\n" = c6 at *
  simp only [List.nodup_cons, List.mem_cons, List.not_mem_nil, or_false, not_or] at nd
  rcases i1 with ⟨e, i1⟩ | ⟨e, i1⟩ | ⟨e, i1⟩ | ⟨e, i1⟩ | ⟨e, i1⟩ | ⟨e, i1⟩ | ⟨e, i1⟩ <;>
    rcases i2 with ⟨e', i2⟩ | ⟨e', i2⟩ | ⟨e', i2⟩ | ⟨e', i2⟩ | ⟨e', i2⟩ | ⟨e', i2⟩ | ⟨e', i2⟩ <;> rw [e] at e' <;>
    first
    | (exfalso; revert nd; simp [e']; done)
    | skip
  all_goals clear nd e e'
  · exact ⟨i1.1.trans i2.1.symm, i1.2.trans i2.2.symm⟩
  · rcases i1 with ⟨a, rfl, rfl⟩ | ⟨t, x, n, a, b, c, rfl, rfl⟩ <;> rcases i2 with ⟨a', rfl, rfl⟩ | ⟨t', x', n', a', b', c', rfl, rfl⟩ <;>
      cases a.symm.trans a'
    · exact ⟨rfl, rfl⟩
    · obtain rfl := readsFloat_one b b'
      obtain rfl := truncates_one c c'
      exact ⟨rfl, rfl⟩
  · rcases i1 with ⟨a, rfl, rfl⟩ | ⟨t, x, m, n, a, b, c, d, rfl, rfl⟩ <;> rcases i2 with ⟨a', rfl, rfl⟩ | ⟨t', x', m', n', a', b', c', d', rfl, rfl⟩ <;>
      cases a.symm.trans a'
    · exact ⟨rfl, rfl⟩
    · obtain rfl := readsFloat_one b b'
      obtain rfl := truncates_one c c'
      obtain rfl := truncates_one d d'
      exact ⟨rfl, rfl⟩
  · obtain ⟨rfl, i1⟩ := i1
    obtain ⟨rfl, i2⟩ := i2
    rcases i1 with ⟨a, rfl⟩ | ⟨a, rfl⟩ <;> rcases i2 with ⟨a', rfl⟩ | ⟨a', rfl⟩ <;> first | exact ⟨rfl, rfl⟩ | exact absurd a a' | exact absurd a' a
  · obtain ⟨rfl, i1⟩ := i1
    obtain ⟨rfl, i2⟩ := i2
    rcases i1 with ⟨a, rfl⟩ | ⟨a, rfl⟩ <;> rcases i2 with ⟨a', rfl⟩ | ⟨a', rfl⟩ <;> first | exact ⟨rfl, rfl⟩ | exact absurd a a' | exact absurd a' a
  · exact ⟨i1.1.trans i2.1.symm, i1.2.trans i2.2.symm⟩
  · rcases i1 with ⟨a, rfl, rfl⟩ | ⟨t, n, a, b, i1⟩ <;> rcases i2 with ⟨a', rfl, rfl⟩ | ⟨t', n', a', b', i2⟩ <;> cases a.symm.trans a'
    · exact ⟨rfl, rfl⟩
    · have hn : n = n' := by
        have := index_one b b'
        omega
      subst hn
      rcases i1 with ⟨ys, c, d, rfl, rfl⟩ | ⟨x, c, d, rfl, rfl⟩ <;> rcases i2 with ⟨ys', c', d', rfl, rfl⟩ | ⟨x', c', d', rfl, rfl⟩
      · obtain rfl := resized_one d d'
        exact ⟨rfl, rfl⟩
      · rcases c with c | c
        · omega
        · rw [c] at d'
          cases d'
      · rcases c' with c' | c'
        · omega
        · rw [c'] at d
          cases d
      · cases d.symm.trans d'
        exact ⟨rfl, rfl⟩

end Properties

/-! ## The flags example -/

theorem flag_one {t : Bytes} {x y : Int} (h1 : ScopedText pl flagNames t x) (h2 : ScopedText pl flagNames t y) : x = y := by
  simpa using (draw_reads.2 ⟨t, rfl, h1⟩).symm.trans (draw_reads.2 ⟨t, rfl, h2⟩)

theorem flags_one_list {ts : List Bytes} {xs ys : List Int} (h1 : Forall2 (fun p x => ScopedText pl flagNames p x) ts xs)
    (h2 : Forall2 (fun p x => ScopedText pl flagNames p x) ts ys) : xs = ys := by
  induction h1 generalizing ys with
  | nil => cases h2; rfl
  | cons a _ ih =>
    cases h2 with
    | cons a' b' => rw [flag_one a a', ih b']

theorem flags_inv {h h' : List (List Int)} {i : Input} {r : Option Bytes} {o : Bytes} (t : FlagsTold pl h i h' r o) :
    (i.name = lit "entity.flags" ∧ o = [] ∧ ((i.arguments = [] ∧ h' = h ∧ ∃ z t, Union pl .int (flagsAfter h) z ∧ FlagText drawDecl z t ∧ r = some t) ∨
      ∃ v xs z t, i.arguments = [v] ∧ Forall2 (fun p x => ScopedText pl flagNames p x) v.subvalues xs ∧ Union pl .int xs z ∧ FlagText drawDecl z t ∧
        h' = h ++ [xs] ∧ r = some t)) ∨
    (i.name = lit "entity.draw" ∧ r = none ∧ h' = h ∧ ∃ b : Nat → Bool, (∀ k, b k = true ↔ ∃ x ∈ flagsAfter h, Bit x k) ∧ o = drawText b) := by
  cases t with
  | read a b => exact .inl ⟨rfl, rfl, .inl ⟨rfl, rfl, _, _, a, b, rfl⟩⟩
  | write a b c => exact .inl ⟨rfl, rfl, .inr ⟨_, _, _, _, rfl, a, b, c, rfl, rfl⟩⟩
  | draw a => exact .inr ⟨rfl, rfl, rfl, _, a, rfl⟩

theorem flags_one : TellsOne (FlagsTold pl).account := by
  refine telling_one ?_
  intro h i h1 r1 o1 h2 r2 o2 t1 t2
  have nd : lit "entity.flags" ≠ lit "entity.draw" := by decide +kernel
  rcases flags_inv t1 with ⟨e, rfl, i1⟩ | ⟨e, rfl, rfl, b, i1, rfl⟩ <;> rcases flags_inv t2 with ⟨e', rfl, i2⟩ | ⟨e', rfl, rfl, b', i2, rfl⟩
  · rcases i1 with ⟨a, rfl, z, t, u, c, rfl⟩ | ⟨v, xs, z, t, a, f, u, c, rfl, rfl⟩ <;>
      rcases i2 with ⟨a', rfl, z', t', u', c', rfl⟩ | ⟨v', xs', z', t', a', f', u', c', rfl, rfl⟩ <;> cases a.symm.trans a'
    · obtain rfl := union_unique _ _ u u'
      rw [flagText_unique c c']
      exact ⟨rfl, rfl, rfl⟩
    · obtain rfl := flags_one_list f f'
      obtain rfl := union_unique _ _ u u'
      rw [flagText_unique c c']
      exact ⟨rfl, rfl, rfl⟩
  · exact absurd (e.symm.trans e') nd
  · exact absurd (e'.symm.trans e) nd
  · have hb : b = b' := funext fun k => Bool.eq_iff_iff.2 ((i1 k).trans (i2 k).symm)
    rw [hb]
    exact ⟨rfl, rfl, rfl⟩

end Coil
