import Verif.Spec.Overloading
import Verif.Proofs.BasicExample
import Verif.Proofs.PrintF
import Verif.Props.NamedCommands

/-!
# The program of examples/overloading: lemmas
-/

namespace Coil
open Spec

variable {pl : Platform} {tiny : Nat → Nat → Bool}

theorem over_quiet : AllQuiet (overFunctions pl tiny) := by
  intro c xs
  cases c with
  | func1 | func2 | func3 | lambda => exact .ret
  | object1 | object2 => exact .get fun _ => .ret
  | create | createRadius => exact .logline .ret

theorem over_func : Table.functions overTable (lit "func") = some [(.func1, ()), (.func2, ()), (.func3, ())] := by decide +kernel
theorem over_mixed : Table.functions overTable (lit "mixed_func") = some [(.lambda, ()), (.func2, ()), (.object1, ()), (.object2, ())] := by decide +kernel
theorem over_create : Table.functions overTable (lit "explosions.create") = some [(.create, ()), (.createRadius, ())] := by decide +kernel

/-- Which function is taken: the first with the right number of parameters. -/
theorem over_first {n : Nat} {fs : List (OverCode × Unit)} {f : OverCode × Unit} (pre post : List (OverCode × Unit)) (h : fs = pre ++ f :: post)
    (hf : (overFunctions pl tiny f.1).params.length = n) (hp : ∀ g ∈ pre, (overFunctions pl tiny g.1).params.length ≠ n) :
    FirstTaking (overFunctions pl tiny) n fs f := ⟨pre, post, h, hf, hp⟩

theorem lambda_text : cstr (lit "lambda1") = lit "lambda1" := by decide +kernel
theorem object1_text : lit "Object::func1 from " ++ lit "object_one" = lit "Object::func1 from object_one" := by decide +kernel
theorem object2_text : lit "Object::func2 from " ++ lit "object_two" = lit "Object::func2 from object_two" := by decide +kernel

theorem default_text (t : Bytes) : explosionText t ++ lit "default radius" ++ [10] =
    lit "Creating an explosion '" ++ upToNul t ++ lit "' with the default radius\n" := by
  have h : lit "' with the " ++ lit "default radius" ++ [10] = lit "' with the default radius\n" := by decide +kernel
  rw [← h]
  simp [explosionText, cstr, upToNul]

theorem radius_text (t p : Bytes) : explosionText t ++ lit "radius " ++ p ++ [10] =
    lit "Creating an explosion '" ++ upToNul t ++ lit "' with the radius " ++ p ++ lit "\n" := by
  have h : lit "' with the " ++ lit "radius " = lit "' with the radius " := by decide +kernel
  rw [← h, newline_text]
  simp [explosionText, cstr, upToNul]

/-- The state is the one at the beginning. -/
def OverKeeps (w : OverWorld) (_ : Unit) : Prop := w = OverWorld.start

theorem over_telltale : Telltale (overFunctions pl tiny) overTable (OverTold pl tiny) OverKeeps where
  known := by
    intro h h' i r o t
    cases t with
    | func0 => exact ⟨by dsimp only; decide +kernel, _, _, over_func, over_first [] _ rfl rfl (by simp), rfl⟩
    | func1 hz =>
      refine ⟨by dsimp only; decide +kernel, _, _, over_func, over_first [_] _ rfl rfl (by simp [overFunctions]), ?_⟩
      simp only [overFunctions, conversionErrors, intText_reads.2 ⟨_, rfl, hz⟩]
    | func2 hz hx =>
      refine ⟨by dsimp only; decide +kernel, _, _, over_func, over_first [_, _] _ rfl rfl (by simp [overFunctions]), ?_⟩
      unfold ReadsFloat at hx
      simp only [overFunctions, conversionErrors, intText_reads.2 ⟨_, rfl, hz⟩, hx]
    | mixed0 => exact ⟨by dsimp only; decide +kernel, _, _, over_mixed, over_first [] _ rfl rfl (by simp), rfl⟩
    | mixed1 hz =>
      refine ⟨by dsimp only; decide +kernel, _, _, over_mixed, over_first [_] _ rfl rfl (by simp [overFunctions, returnsCStr]), ?_⟩
      simp only [overFunctions, conversionErrors, intText_reads.2 ⟨_, rfl, hz⟩]
    | mixed2 hx =>
      refine ⟨by dsimp only; decide +kernel, _, _, over_mixed, over_first [_, _] _ rfl rfl (by simp [overFunctions, returnsCStr]), ?_⟩
      unfold ReadsFloat at hx
      simp only [overFunctions, conversionErrors, hx, string_reads.2 rfl]
    | mixed3 hx hb =>
      refine ⟨by dsimp only; decide +kernel, _, _, over_mixed, over_first [_, _, _] _ rfl rfl (by simp [overFunctions, returnsCStr]), ?_⟩
      unfold ReadsFloat at hx
      simp only [overFunctions, conversionErrors, hx, string_reads.2 rfl, bool_reads.2 ⟨_, rfl, hb⟩]
    | create => exact ⟨by dsimp only; decide +kernel, _, _, over_create, over_first [] _ rfl rfl (by simp), rfl⟩
    | radius hx =>
      refine ⟨by dsimp only; decide +kernel, _, _, over_create, over_first [_] _ rfl rfl (by simp [overFunctions]), ?_⟩
      unfold ReadsFloat at hx
      simp only [overFunctions, conversionErrors, hx, string_reads.2 rfl]
  does := by
    rintro w w' ⟨⟩ ⟨nm, args, named⟩ fs ⟨c, u⟩ xs es e hk hfs hf hx hs
    have hmem := firstTaking_member hf
    have hm := functions_mem hfs
    unfold OverKeeps at hk
    subst hk
    simp only [overTable, List.mem_cons, List.not_mem_nil, or_false, Prod.mk.injEq] at hm
    dsimp only at hf hx hs
    rcases hm with ⟨rfl, rfl⟩ | ⟨rfl, rfl⟩ | ⟨rfl, rfl⟩ <;>
      simp only [List.mem_cons, List.not_mem_nil, or_false, Prod.mk.injEq] at hmem
    · rcases hmem with ⟨rfl, _⟩ | ⟨rfl, _⟩ | ⟨rfl, _⟩
      · match args, hx with
        | [], hx =>
          obtain ⟨rfl, rfl, rfl⟩ := says_ret hs
          exact ⟨_, (), rfl, rfl, rfl, .func0⟩
      · match args, hx with
        | [a], hx =>
          obtain ⟨x, _⟩ := xs
          obtain ⟨t, rfl, ht⟩ := intText_reads.1 hx.1
          obtain ⟨rfl, rfl, rfl⟩ := says_ret hs
          exact ⟨_, (), rfl, rfl, rfl, .func1 ht⟩
      · match args, hx with
        | [a, b], hx =>
          obtain ⟨x, y, _⟩ := xs
          obtain ⟨t, rfl, ht⟩ := intText_reads.1 hx.1
          obtain ⟨t', rfl, ht'⟩ := single_reads hx.2.1
          obtain ⟨rfl, rfl, rfl⟩ := says_ret hs
          exact ⟨_, (), rfl, rfl, rfl, .func2 ht ht'⟩
    · rcases hmem with ⟨rfl, _⟩ | ⟨rfl, _⟩ | ⟨rfl, _⟩ | ⟨rfl, _⟩
      · match args, hx with
        | [], hx =>
          have hs' : Says (W := OverWorld) (C := OverCode) u named [] (.ret (cstr (lit "lambda1"))) OverWorld.start es e w' := hs
          rw [lambda_text] at hs'
          obtain ⟨rfl, rfl, rfl⟩ := says_ret hs'
          exact ⟨_, (), rfl, rfl, rfl, .mixed0⟩
      · match args, hx with
        | [a], hx =>
          obtain ⟨x, _⟩ := xs
          obtain ⟨t, rfl, ht⟩ := intText_reads.1 hx.1
          obtain ⟨rfl, rfl, rfl⟩ := says_ret hs
          exact ⟨_, (), rfl, rfl, rfl, .mixed1 ht⟩
      · match args, hx with
        | [a, b], hx =>
          obtain ⟨x, y, _⟩ := xs
          have hv := string_reads.1 hx.1
          subst hv
          obtain ⟨t', rfl, ht'⟩ := single_reads hx.2.1
          have hs1 := says_get hs
          obtain ⟨rfl, rfl, rfl⟩ := says_ret hs1
          refine ⟨_, (), rfl, rfl, rfl, ?_⟩
          have := OverTold.mixed2 (pl := pl) (t := x) (named := named) ht'
          rw [← object1_text] at this
          exact this
      · match args, hx with
        | [a, b, c], hx =>
          obtain ⟨x, y, z, _⟩ := xs
          have hv := string_reads.1 hx.1
          subst hv
          obtain ⟨t', rfl, ht'⟩ := single_reads hx.2.1
          obtain ⟨r, rfl, hr⟩ := bool_reads.1 hx.2.2.1
          have hs1 := says_get hs
          obtain ⟨rfl, rfl, rfl⟩ := says_ret hs1
          refine ⟨_, (), rfl, rfl, rfl, ?_⟩
          have := OverTold.mixed3 (pl := pl) (t := x) (named := named) ht' hr
          rw [← object2_text] at this
          exact this
    · rcases hmem with ⟨rfl, _⟩ | ⟨rfl, _⟩
      · match args, hx with
        | [a], hx =>
          obtain ⟨x, _⟩ := xs
          have hv := string_reads.1 hx.1
          subst hv
          obtain ⟨es1, rfl, hs1⟩ := says_logline hs
          obtain ⟨rfl, rfl, rfl⟩ := says_ret hs1
          refine ⟨(), (), rfl, rfl, rfl, ?_⟩
          rw [outputOf_logline, newline_text]
          have e0 : outputOf ([] : List CtxEvent) = [] := rfl
          rw [e0, List.append_nil, default_text]
          exact .create
      · match args, hx with
        | [a, b], hx =>
          obtain ⟨x, y, _⟩ := xs
          have hv := string_reads.1 hx.1
          subst hv
          obtain ⟨t', rfl, ht'⟩ := single_reads hx.2.1
          obtain ⟨es1, rfl, hs1⟩ := says_logline hs
          obtain ⟨rfl, rfl, rfl⟩ := says_ret hs1
          refine ⟨(), (), rfl, rfl, rfl, ?_⟩
          rw [outputOf_logline, newline_text]
          have e0 : outputOf ([] : List CtxEvent) = [] := rfl
          rw [e0, List.append_nil, radius_text]
          exact .radius ht' (Floats.printF_places _)

/-! ## When the program answers -/

theorem over_says (c : OverCode) (xs : Args (overFunctions pl tiny c).params) (l : List Named) (w : OverWorld) :
    ∃ es e, Says () l [] ((overFunctions pl tiny c).body xs) w es e w := by
  cases c with
  | func1 | func2 | func3 | lambda => exact ⟨_, _, .ret⟩
  | object1 | object2 => exact ⟨_, _, .get .ret⟩
  | create | createRadius => exact ⟨_, _, .logline .ret⟩

theorem over_steady : Steady (overFunctions pl tiny) overTable (fun _ => True) where
  same := by
    rintro _ ⟨c, u⟩ xs l w v es e w' _ _ _ _ _
    obtain ⟨es, e, h⟩ := over_says (pl := pl) (tiny := tiny) c xs l v
    exact ⟨es, e, v, h⟩
  stays := by intros; trivial

theorem over_answerable (i : Input) : Answerable (overFunctions pl tiny) overTable (fun _ => True) i ↔ ¬ OverTrouble pl i := by
  constructor
  · rintro h ⟨hc, hn, a, b, t, ha, ho⟩
    obtain ⟨h1, _⟩ := h _ (.object2, ()) (by rw [hn]; decide +kernel) (by rw [hn]; exact over_mixed)
      (by rw [ha]; exact over_first [_, _, _] _ rfl rfl (by simp [overFunctions, returnsCStr]))
    rw [ha] at h1
    exact (bool_converts ⟨[t]⟩).1 h1.2.2.1 ⟨hc, t, rfl, ho⟩
  · rintro hn fs ⟨c, u⟩ _ hfs hf
    have hmem := firstTaking_member hf
    have hlen := firstTaking_length hf
    have hm := functions_mem hfs
    obtain ⟨nm, args, named⟩ := i
    dsimp only at hlen hm ⊢
    refine ⟨?_, fun xs _ w _ => ?_⟩
    · cases c with
      | func1 | lambda =>
        match args, hlen with
        | [], _ => exact trivial
      | func2 =>
        match args, hlen with
        | [a], _ => exact ⟨int_converts a, trivial⟩
      | func3 =>
        match args, hlen with
        | [a, b], _ => exact ⟨int_converts a, single_defined b, trivial⟩
      | object1 | createRadius =>
        match args, hlen with
        | [a, b], _ => exact ⟨string_converts a, single_defined b, trivial⟩
      | object2 =>
        match args, hlen with
        | [a, b, c], _ =>
          refine ⟨string_converts a, single_defined b, (bool_converts c).2 ?_, trivial⟩
          rintro ⟨h1, t, rfl, h2⟩
          refine hn ⟨h1, ?_, a, b, t, rfl, h2⟩
          simp only [overTable, List.mem_cons, List.not_mem_nil, or_false, Prod.mk.injEq] at hm
          rcases hm with ⟨rfl, rfl⟩ | ⟨rfl, rfl⟩ | ⟨rfl, rfl⟩ <;> first | rfl | simp at hmem
      | create =>
        match args, hlen with
        | [a], _ => exact ⟨string_converts a, trivial⟩
    · obtain ⟨es, e, h⟩ := over_says (pl := pl) (tiny := tiny) c xs named w
      exact ⟨es, e, w, h⟩

end Coil
