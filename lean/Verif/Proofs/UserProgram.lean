import Verif.Spec.UserProgram
import Verif.Proofs.ErrorProgram
import Verif.Proofs.NamedProgram
import Verif.Proofs.PropertyProgram
import Verif.Props.Arith
import Verif.Props.Particles
import Verif.Props.Pool

/-!
# The program of examples/usertypes: lemmas
-/

namespace Coil
open Spec Fl Floats

variable {pl : Platform} {sz : IntType} {tiny : Nat → Nat → Bool} {nan : Fl → Fl → Bool} {catching : Bool}

/-! ## Conversions -/

theorem vec_iff {v : Value} {p : Vec2} : (vec2Conv tiny).fromString v = .ok (.ok p) ↔ ReadsVec tiny v p := by
  constructor
  · intro h
    unfold vec2Conv at h
    simp only at h
    split at h
    · rename_i a b hl
      obtain ⟨x, hx, h⟩ := Res.bind_eq_ok.1 h
      obtain ⟨y, hy, h⟩ := Res.bind_eq_ok.1 h
      obtain ⟨l⟩ := v
      dsimp only at hl
      subst hl
      cases x with
      | error => simp at h
      | ok x =>
        cases y with
        | error => simp at h
        | ok y =>
          simp only [Res.ok.injEq, Except.ok.injEq] at h
          subst h
          exact ⟨a, b, rfl, hx, hy⟩
    · simp at h
  · rintro ⟨a, b, rfl, hx, hy⟩
    exact vec2_ok hx hy

theorem ints_iff {v : Value} {xs : List Int} : (dynConv (intConv pl .int)).fromString v = .ok (.ok xs) ↔ Forall2 (IntText pl) v.subvalues xs := by
  have key : ∀ (s : Bytes) (x : Int), (intConv pl .int).fromString ⟨[s]⟩ = .ok (.ok x) ↔ IntText pl s x := by
    intro s x
    rw [int_reads]
    constructor
    · rintro ⟨t, h, h1⟩
      cases h
      exact h1
    · exact fun h => ⟨s, rfl, h⟩
  show dynLoop _ _ v v.subvalues [] = _ ↔ _
  rw [dynLoop_eq, vecLoop_ok_iff (c := intConv pl .int) rfl]
  simp only [key, List.nil_append]
  exact ⟨fun ⟨_, h, h1⟩ => h ▸ h1, fun h => ⟨xs, rfl, h⟩⟩

theorem ints_defined (v : Value) : ∃ r, (dynConv (intConv pl .int)).fromString v = .ok r := by
  have key : ∀ (l : List Bytes) (acc : List Int), ∃ r, dynLoop (intConv pl .int) (lit "DynamicArray<" ++ (intConv pl .int).name ++ lit ">") v l acc = .ok r := by
    intro l
    induction l with
    | nil => exact fun acc => ⟨_, rfl⟩
    | cons s l ih =>
      intro acc
      obtain ⟨r, hr⟩ := int_converts (pl := pl) (t := .int) ⟨[s]⟩
      unfold dynLoop
      rw [onTemporary_eq (c := intConv pl .int) rfl, hr]
      cases r with
      | error => exact ⟨_, rfl⟩
      | ok x => exact ih _
  exact key _ _

theorem id_defined (v : Value) : ∃ r, (entityIdConv pl sz).fromString v = .ok r := by
  obtain ⟨r, hr⟩ := int_converts (pl := pl) (t := sz) v
  simp only [entityIdConv, hr, Res.bind_ok]
  cases r with
  | error => exact ⟨_, rfl⟩
  | ok => exact ⟨_, rfl⟩

theorem accumulate_iff {xs : List Int} {z : Int} : accumulate xs 0 = .ok z ↔ SumsFit pl xs ∧ z = xs.sum := by
  obtain ⟨a1, a2⟩ := accumulate_spec pl xs 0
  simp only [Int.zero_add] at a1 a2
  by_cases hr : SumsFit pl xs
  · rw [a1 fun k _ _ => hr k]
    simp [hr, eq_comm]
  · have : accumulate xs 0 = .ub .intOverflow := by
      refine a2 ?_
      unfold SumsFit at hr
      simp only [Classical.not_forall] at hr
      obtain ⟨k, hk⟩ := hr
      rcases Nat.eq_zero_or_pos k with rfl | h0
      · exact absurd (int_inRange.2 (by simp)) hk
      · rcases Nat.lt_or_ge xs.length k with hl | hl
        · rw [List.take_of_length_le (by omega)] at hk
          refine ⟨xs.length, ?_, Nat.le_refl _, by rwa [List.take_length]⟩
          rcases Nat.eq_zero_or_pos xs.length with h | h
          · have := List.eq_nil_of_length_eq_zero h
            subst this
            exact absurd (int_inRange.2 (by simp)) hk
          · exact h
        · exact ⟨k, h0, hl, hk⟩
    rw [this]
    simp [hr]

/-! ## The functions -/

theorem user_spawn : Table.functions userTable (lit "particles.spawn") = some [(.spawn, ())] := by decide +kernel
theorem user_posAt : Table.functions userTable (lit "particles.get_pos_at") = some [(.posAt, ())] := by decide +kernel
theorem user_pos : Table.functions userTable (lit "particles.last_particle_pos") = some [(.pos, ()), (.setPos, ())] := by decide +kernel
theorem user_sum : Table.functions userTable (lit "sum") = some [(.sum, ())] := by decide +kernel

/-- The names of the functions. -/
def UserCode.name : UserCode → Bytes
  | .add => lit "entities.add"
  | .find => lit "entities.find"
  | .focus | .setFocus => lit "entities.focused_entity"
  | .removeSome => lit "entities.remove_some"
  | .spawn => lit "particles.spawn"
  | .posAt => lit "particles.get_pos_at"
  | .pos | .setPos => lit "particles.last_particle_pos"
  | .sum => lit "sum"

theorem user_member {i : Input} {fs : List (UserCode × Unit)} {f : UserCode × Unit} (hfs : Table.functions userTable i.name = some fs)
    (hf : f ∈ fs) : i.name = f.1.name := by
  have hc := functions_mem hfs
  simp only [userTable, List.mem_cons, List.not_mem_nil, or_false, Prod.mk.injEq] at hc
  rcases hc with ⟨h1, rfl⟩ | ⟨h1, rfl⟩ | ⟨h1, rfl⟩ | ⟨h1, rfl⟩ | ⟨h1, rfl⟩ | ⟨h1, rfl⟩ | ⟨h1, rfl⟩ | ⟨h1, rfl⟩ <;>
    simp only [List.mem_cons, List.not_mem_nil, or_false] at hf <;> rcases hf with rfl | rfl <;> exact h1

/-- The state has what the history tells. -/
def UserKeeps (w : UserWorld) (h : UserHistory) : Prop := Keeps w.pool h.deeds ∧ w.particle = ⟨h.pos, h.vel⟩

theorem user_does (hsz : SizeType pl sz) {w w' : UserWorld} {h : UserHistory} (hk : UserKeeps w h) {i : Input} {fs : List (UserCode × Unit)}
    {f : UserCode × Unit} {xs : Args (userFunctions pl sz tiny nan f.1).params} {es : List CtxEvent} {e : End (userFunctions pl sz tiny nan f.1).R}
    (hfs : Table.functions userTable i.name = some fs) (hf : FirstTaking (userFunctions pl sz tiny nan) i.arguments.length fs f)
    (hx : ConvertTo (userFunctions pl sz tiny nan f.1).params i.arguments xs)
    (hs : Says f.2 i.namedArguments [] ((userFunctions pl sz tiny nan f.1).body xs) w es e w') :
    ∃ h', UserKeeps w' h' ∧ UserTold pl tiny nan h i h' (outcomeOf (userFunctions pl sz tiny nan f.1).print es e) := by
  have hm := user_member hfs (firstTaking_member hf)
  have ent : i.name ∈ entityNames → w'.particle = w.particle →
      ∃ h', UserKeeps w' h' ∧ UserTold pl tiny nan h i h' (outcomeOf (userFunctions pl sz tiny nan f.1).print es e) := by
    intro hn hp
    obtain ⟨rfl, r, deeds, rfl, h1, h2⟩ := entity_returns hsz hk.1 hn hfs hf hx hs
    exact ⟨⟨deeds, h.pos, h.vel⟩, ⟨h1, hp.trans hk.2⟩, .entity h2⟩
  obtain ⟨name, args, named⟩ := i
  obtain ⟨c, ⟨⟩⟩ := f
  dsimp only at hm hx hs ent ⊢
  subst hm
  cases c with
  | add =>
    refine ent (by decide +kernel) ?_
    have hs := says_get hs
    have hs := says_set hs
    obtain ⟨_, _, rfl⟩ := says_ret hs
    rfl
  | find =>
    refine ent (by decide +kernel) ?_
    have hs := says_get hs
    obtain ⟨_, _, rfl⟩ := says_ret hs
    rfl
  | focus =>
    refine ent (by decide +kernel) ?_
    have hs := says_get hs
    obtain ⟨_, _, rfl⟩ := says_ret hs
    rfl
  | setFocus =>
    refine ent (by decide +kernel) ?_
    have hs := says_get hs
    have hs := says_set hs
    have hs := says_get hs
    obtain ⟨_, _, rfl⟩ := says_ret hs
    rfl
  | removeSome =>
    refine ent (by decide +kernel) ?_
    have hs := says_get hs
    have hs := says_set hs
    obtain ⟨_, _, rfl⟩ := says_ret hs
    rfl
  | spawn =>
    obtain ⟨p, q, ⟨⟩⟩ := xs
    match args, hx with
    | [v, u], hx =>
      have hs := says_get hs
      have hs := says_set hs
      obtain ⟨rfl, rfl, rfl⟩ := says_ret hs
      exact ⟨⟨h.deeds, p, q⟩, ⟨hk.1, rfl⟩, .spawn (vec_iff.1 hx.1) (vec_iff.1 hx.2.1)⟩
  | posAt =>
    obtain ⟨x, ⟨⟩⟩ := xs
    match args, hx with
    | [v], hx =>
      have hs := says_get hs
      obtain ⟨rfl, rfl, rfl⟩ := says_ret hs
      obtain ⟨t, rfl, ht⟩ := single_reads hx.1
      refine ⟨h, hk, .posAt ht ?_⟩
      have : h.at_ nan x = (w'.particle.pos.plus nan (w'.particle.vel.scale nan x)) := by rw [hk.2]; rfl
      rw [this]
      exact pairText _
  | pos =>
    match args, hx with
    | [], hx =>
      have hs := says_get hs
      obtain ⟨rfl, rfl, rfl⟩ := says_ret hs
      refine ⟨h, hk, .pos ?_⟩
      have : h.pos = w'.particle.pos := by rw [hk.2]
      rw [this]
      exact pairText _
  | setPos =>
    obtain ⟨p, ⟨⟩⟩ := xs
    match args, hx with
    | [v], hx =>
      have hs := says_get hs
      have hs := says_set hs
      have hs := says_get hs
      obtain ⟨rfl, rfl, rfl⟩ := says_ret hs
      refine ⟨⟨h.deeds, p, h.vel⟩, ⟨hk.1, ?_⟩, .setPos (vec_iff.1 hx.1) (pairText _)⟩
      show (⟨p, w.particle.vel⟩ : Particle) = _
      rw [hk.2]
  | sum =>
    obtain ⟨l, ⟨⟩⟩ := xs
    match args, hx with
    | [v], hx =>
      obtain ⟨z, h1, rfl, rfl, rfl⟩ := says_ofRes hs
      obtain ⟨h2, rfl⟩ := accumulate_iff.1 h1
      exact ⟨h, hk, .sum (ints_iff.1 hx.1) h2⟩

theorem user_accounts (hsz : SizeType pl sz) : Accounts (userFunctions pl sz tiny nan) userTable (UserTold pl tiny nan) UserKeeps where
  known := by
    intro h h' i o t
    cases t with
    | entity ht =>
      refine ⟨?_, told_converts hsz ht⟩
      cases ht <;> (dsimp only; decide +kernel)
    | spawn h1 h2 =>
      refine ⟨by dsimp only; decide +kernel, _, _, user_spawn, firstTaking_single rfl, ?_⟩
      show conversionErrors [⟨Vec2, vec2Conv tiny⟩, ⟨Vec2, vec2Conv tiny⟩] _ = []
      simp [conversionErrors, vec_iff.2 h1, vec_iff.2 h2]
    | posAt h1 => exact ⟨by dsimp only; decide +kernel, _, _, user_posAt, firstTaking_single rfl, reads_errors h1⟩
    | pos => exact ⟨by dsimp only; decide +kernel, _, _, user_pos, firstTaking_first rfl, rfl⟩
    | setPos h1 =>
      refine ⟨by dsimp only; decide +kernel, _, _, user_pos, firstTaking_second rfl Nat.zero_ne_one, ?_⟩
      show conversionErrors [⟨Vec2, vec2Conv tiny⟩] _ = []
      simp [conversionErrors, vec_iff.2 h1]
    | sum h1 =>
      refine ⟨by dsimp only; decide +kernel, _, _, user_sum, firstTaking_single rfl, ?_⟩
      show conversionErrors [⟨List Int, dynConv (intConv pl .int)⟩] _ = []
      simp [conversionErrors, ints_iff.2 h1]
  does := by
    intro w w' h i fs f xs es e hk hfs hf hx hs
    exact user_does hsz hk hfs hf hx hs

theorem user_runs {c : UserCode} {xs : Args (userFunctions pl sz tiny nan c).params} (l : List Named) (w : UserWorld) (hc : c ≠ .sum) :
    ∃ es e w', Says () l [] ((userFunctions pl sz tiny nan c).body xs) w es e w' := by
  cases c with
  | add | removeSome | spawn => exact ⟨_, _, _, .get (.set .ret)⟩
  | find | focus | posAt | pos => exact ⟨_, _, _, .get .ret⟩
  | setFocus | setPos => exact ⟨_, _, _, .get (.set (.get .ret))⟩
  | sum => exact absurd rfl hc

theorem user_steady : Steady (userFunctions pl sz tiny nan) userTable (fun _ => True) where
  same := by
    rintro _ ⟨c, ⟨⟩⟩ xs l w v es e w' _ _ _ _ hs
    by_cases hc : c = .sum
    · subst hc
      obtain ⟨z, h1, _⟩ := says_ofRes hs
      refine ⟨[], .ret z, v, ?_⟩
      show Says () l [] (Prog.ofRes (accumulate xs.1 0)) v _ _ _
      rw [h1]
      exact .ret
    · exact user_runs l v hc
  stays := by intros; trivial

theorem user_answerable (i : Input) :
    Answerable (userFunctions pl sz tiny nan) userTable (fun _ => True) i ↔ ¬ UserTrouble pl i := by
  constructor
  · rintro ha ⟨h1, v, xs, h2, h3, h4⟩
    obtain ⟨nm, args, named⟩ := i
    dsimp only at h1 h2
    subst h1 h2
    obtain ⟨_, h5⟩ := ha _ (.sum, ()) (by dsimp only; decide +kernel) user_sum (firstTaking_single rfl)
    have hx : ConvertTo [⟨List Int, dynConv (intConv pl .int)⟩] [v] (xs, ()) := ⟨ints_iff.2 h3, trivial⟩
    obtain ⟨es, e, w, hs⟩ := h5 _ hx UserWorld.start trivial
    obtain ⟨z, h6, _⟩ := says_ofRes hs
    exact h4 (accumulate_iff.1 h6).1
  · rintro hn fs ⟨c, ⟨⟩⟩ _ hfs hf
    have hlen := firstTaking_length hf
    have hm := user_member hfs (firstTaking_member hf)
    obtain ⟨nm, args, named⟩ := i
    dsimp only at hlen hm ⊢
    subst hm
    refine ⟨?_, ?_⟩
    · cases c with
      | add | find =>
        match args, hlen with
        | [a], _ => exact ⟨string_converts a, trivial⟩
      | focus | pos =>
        match args, hlen with
        | [], _ => exact trivial
      | setFocus =>
        match args, hlen with
        | [a], _ => exact ⟨id_defined a, trivial⟩
      | removeSome =>
        match args, hlen with
        | [a], _ => exact ⟨⟨_, dyn_strings a⟩, trivial⟩
      | spawn =>
        match args, hlen with
        | [a, b], _ => exact ⟨vec2_defined a, vec2_defined b, trivial⟩
      | posAt =>
        match args, hlen with
        | [a], _ => exact ⟨single_defined a, trivial⟩
      | setPos =>
        match args, hlen with
        | [a], _ => exact ⟨vec2_defined a, trivial⟩
      | sum =>
        match args, hlen with
        | [a], _ => exact ⟨ints_defined a, trivial⟩
    · rintro xs hx w _
      by_cases hc : c = .sum
      · subst hc
        obtain ⟨l, ⟨⟩⟩ := xs
        match args, hx with
        | [v], hx =>
          have h1 := ints_iff.1 hx.1
          by_cases h2 : SumsFit pl l
          · refine ⟨[], .ret l.sum, w, ?_⟩
            show Says () named [] (Prog.ofRes (accumulate l 0)) w _ _ _
            rw [accumulate_iff.2 ⟨h2, rfl⟩]
            exact .ret
          · exact absurd ⟨rfl, v, l, rfl, h1, h2⟩ hn
      · exact user_runs named w hc

/-! ## Requests in a row -/

theorem annals_split {H : Type} {told : Account H} {catching : Bool} {d : Delims} {h' : H} {more : List Request} :
    ∀ {reqs : List Request} {outs : List ExecOut} {h : H}, Annals told catching d h (reqs ++ more) outs h' →
    ∃ h1 outs1 outs2, outs = outs1 ++ outs2 ∧ outs1.length = reqs.length ∧ Annals told catching d h reqs outs1 h1 ∧
      Annals told catching d h1 more outs2 h'
  | [], outs, h, ha => ⟨h, [], outs, rfl, rfl, .nil, ha⟩
  | r :: reqs, _, _, ha => by
    cases ha with
    | wrong hm ha =>
      obtain ⟨h1, o1, o2, rfl, hl, g1, g2⟩ := annals_split ha
      exact ⟨h1, _ :: o1, o2, rfl, by simp [hl], .wrong hm g1, g2⟩
    | line hi hr ha =>
      obtain ⟨h1, o1, o2, rfl, hl, g1, g2⟩ := annals_split ha
      exact ⟨h1, _ :: o1, o2, rfl, by simp [hl], .line hi hr g1, g2⟩
    | input hr ha =>
      obtain ⟨h1, o1, o2, rfl, hl, g1, g2⟩ := annals_split ha
      exact ⟨h1, _ :: o1, o2, rfl, by simp [hl], .input hr g1, g2⟩

end Coil
