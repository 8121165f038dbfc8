import Verif.Proofs.PropertyProgram
import Verif.Props.Answered

/-!
# The program of examples/properties (C124)
-/

namespace Coil
open Spec Fl Floats

variable {pl : Platform} {refuse : Nat → Option Exn} {tiny : Nat → Nat → Bool} {nan : Fl → Fl → Bool} {hypot : Fl → Fl → Fl}
  {catching charSigned fixed : Bool} {cfg : LexCfg} {reqs : List Request} {exceeds : Nat → Nat → Bool} {outs : List ExecOut}
  {s : Sys (UMap Bytes (Command PropCode Unit)) PropWorld PropCode Unit} {fuel : Nat}

/-- **C124.** Whatever is entered, the commands do what is told, from the window and the numbers of the beginning on. -/
theorem C124_run (hp : Proper cfg) (hex : ∀ b, 0 < b → exceeds 1 b = false) (hl : pl.long64 = true)
    (h : observed (propFunctions pl refuse tiny nan hypot) (mapOps fixed charSigned exceeds) (UMap.create (djb2 charSigned) 1) catching fuel
      (some (fitting cfg)) propStart (fixedProgram propTable reqs) = .ok (s, outs)) :
    Annals (PropTold refuse tiny nan hypot) catching (delims cfg) ⟨⟨1920, 1080⟩, [3, 1, 4]⟩ reqs outs s.user := by
  obtain ⟨_, g, rfl⟩ := (prop_accounts hl).annals ((C110_run hp hex prop_quiet).1 ⟨fuel, s, h, rfl⟩) rfl
  exact g

/-- **C124, partial.** When one more request is answered: exactly if its line fits and has no lone quote in a group, and it does not set the window to
a width or height that is negative, too great, infinite or not a number. The full claim, that it always is, is false: see `C124_next_false`. -/
theorem C124_next_partial (hp : Proper cfg) (hex : ∀ b, 0 < b → exceeds 1 b = false) (hl : pl.long64 = true)
    (h : observed (propFunctions pl refuse tiny nan hypot) (mapOps fixed charSigned exceeds) (UMap.create (djb2 charSigned) 1) catching fuel
      (some (fitting cfg)) propStart (fixedProgram propTable reqs) = .ok (s, outs)) (r : Request) :
    (∃ fuel s outs, observed (propFunctions pl refuse tiny nan hypot) (mapOps fixed charSigned exceeds) (UMap.create (djb2 charSigned) 1) catching fuel
      (some (fitting cfg)) propStart (fixedProgram propTable (reqs ++ [r])) = .ok (s, outs)) ↔
    Enterable (delims cfg) r ∧ ∀ i, Enters (delims cfg) r i → ¬ PropTrouble tiny nan hypot s.user i := by
  rw [C117_next hp hex prop_quiet h r]
  simp only [prop_answerable hl]

/-- **C124.** The sides of the window are always numbers of type `std::size_t`. -/
theorem C124_sides (hp : Proper cfg) (hex : ∀ b, 0 < b → exceeds 1 b = false) (hl : pl.long64 = true)
    (h : observed (propFunctions pl refuse tiny nan hypot) (mapOps fixed charSigned exceeds) (UMap.create (djb2 charSigned) 1) catching fuel
      (some (fitting cfg)) propStart (fixedProgram propTable reqs) = .ok (s, outs)) :
    s.user.window.width < 2 ^ 64 ∧ s.user.window.height < 2 ^ 64 := by
  have small : ∀ {x : Fl} {n : Nat}, Truncates x n → n < 2 ^ 64 := by
    rintro x n ⟨_, _, _, _, _, _, rfl | ⟨_, h⟩⟩
    · exact Nat.two_pow_pos _
    · exact h
  refine annals_kept (I := fun h => h.window.width < 2 ^ 64 ∧ h.window.height < 2 ^ 64) (C124_run hp hex hl h) ?_
    ⟨by norm_num, by norm_num⟩
  intro r _ i _ h h' o h0 ht
  cases ht with
  | setAspect _ hn hw => subst hw; exact ⟨small hn, h0.2⟩
  | setDiagonal _ hm hn hw => subst hw; exact ⟨small hm, small hn⟩
  | _ => exact h0

/-- **C124.** The numbers of the beginning, cut off somewhere and followed by zeros, are all there ever is in `data`. -/
theorem C124_data (hp : Proper cfg) (hex : ∀ b, 0 < b → exceeds 1 b = false) (hl : pl.long64 = true)
    (h : observed (propFunctions pl refuse tiny nan hypot) (mapOps fixed charSigned exceeds) (UMap.create (djb2 charSigned) 1) catching fuel
      (some (fitting cfg)) propStart (fixedProgram propTable reqs) = .ok (s, outs)) :
    ∃ k z, s.user.data = [3, 1, 4].take k ++ List.replicate z 0 := by
  have key : ∃ k z, k ≤ 3 ∧ s.user.data = [3, 1, 4].take k ++ List.replicate z 0 := by
    refine annals_kept (I := fun h => ∃ k z, k ≤ 3 ∧ h.data = [3, 1, 4].take k ++ List.replicate z 0) (C124_run hp hex hl h) ?_ ⟨3, 0, by omega, rfl⟩
    intro r _ i _ h h' o h0 ht
    cases ht with
    | @setSize _ t n ys named _ _ hr =>
      obtain ⟨k, z, hk, hd⟩ := h0
      refine ⟨min k n, n - min k n, by omega, resized_unique hr ?_⟩
      have hlen : ([3, 1, 4] : List Int).length = 3 := rfl
      constructor
      · simp only [List.length_append, List.length_take, List.length_replicate, hlen]
        omega
      · intro j hj
        rw [hd]
        by_cases hjk : j < k
        · rw [List.getElem?_append_left (by simp only [List.length_take, hlen]; omega), List.getElem?_append_left (by simp only [List.length_take, hlen]; omega),
            List.getElem?_take_of_lt (by omega), List.getElem?_take_of_lt hjk, List.getElem?_eq_getElem (by rw [hlen]; omega)]
          rfl
        · rw [List.getElem?_append_right (by simp only [List.length_take, hlen]; omega), List.getElem?_append_right (by simp only [List.length_take, hlen]; omega),
            List.getElem?_replicate, List.getElem?_replicate, if_pos (by simp only [List.length_take, hlen]; omega)]
          split <;> rfl
    | _ => exact h0
  obtain ⟨k, z, _, h1⟩ := key
  exact ⟨k, z, h1⟩

/-- **C124.** What is not set stays: the window if nothing is entered for `window.aspect` and `window.diagonal`, its height if nothing is entered for
`window.diagonal`, the numbers if nothing is entered for `data.size`. -/
theorem C124_kept (hp : Proper cfg) (hex : ∀ b, 0 < b → exceeds 1 b = false) (hl : pl.long64 = true)
    (h : observed (propFunctions pl refuse tiny nan hypot) (mapOps fixed charSigned exceeds) (UMap.create (djb2 charSigned) 1) catching fuel
      (some (fitting cfg)) propStart (fixedProgram propTable reqs) = .ok (s, outs)) :
    ((∀ r ∈ reqs, ∀ i, Enters (delims cfg) r i → i.name ≠ lit "window.aspect" ∧ i.name ≠ lit "window.diagonal") → s.user.window = ⟨1920, 1080⟩) ∧
    ((∀ r ∈ reqs, ∀ i, Enters (delims cfg) r i → i.name ≠ lit "window.diagonal") → s.user.window.height = 1080) ∧
    ((∀ r ∈ reqs, ∀ i, Enters (delims cfg) r i → i.name ≠ lit "data.size") → s.user.data = [3, 1, 4]) := by
  have ha := C124_run hp hex hl h
  refine ⟨fun hn => ?_, fun hn => ?_, fun hn => ?_⟩
  · refine annals_kept (I := fun h => h.window = ⟨1920, 1080⟩) ha ?_ rfl
    intro r hr i hi h h' o h0 ht
    have hn := hn r hr i hi
    cases ht with
    | setAspect => exact absurd rfl hn.1
    | setDiagonal => exact absurd rfl hn.2
    | _ => exact h0
  · refine annals_kept (I := fun h => h.window.height = 1080) ha ?_ rfl
    intro r hr i hi h h' o h0 ht
    have hn := hn r hr i hi
    cases ht with
    | setAspect _ _ hw => subst hw; exact h0
    | setDiagonal => exact absurd rfl hn
    | _ => exact h0
  · refine annals_kept (I := fun h => h.data = [3, 1, 4]) ha ?_ rfl
    intro r hr i hi h h' o h0 ht
    have hn := hn r hr i hi
    cases ht with
    | setSize => exact absurd rfl hn
    | _ => exact h0

/-! ## Examples -/

namespace Prop124

/-- A diagonal for the examples: the greater side. -/
def longer (a b : Fl) : Fl :=
  match a, b with
  | .fin _ m e, .fin _ n f => if m * 2 ^ (e + 200).toNat < n * 2 ^ (f + 200).toNat then b else a
  | _, _ => a

/-- Sizes above 8 are refused. -/
def few (n : Nat) : Option Exn := if n ≤ 8 then none else some (.std (lit "vector::_M_default_append"))

/-- The program with these lines, on the hash map as it is. -/
abbrev entered (catching : Bool) (lines : List Bytes) : Res (Sys (UMap Bytes (Command PropCode Unit)) PropWorld PropCode Unit × List ExecOut) :=
  observed (propFunctions linux64 few (fun _ _ => true) (fun _ _ => true) longer) (mapOps false true overOne) (UMap.create (djb2 true) 1)
    catching 5 (some (fitting (LexCfg.default true))) propStart (fixedProgram propTable (lines.map .line))

/-- The answers: errors, and return value or output; `none` for an exception. -/
abbrev answers (catching : Bool) (lines : List String) : Res (List (Option (List Bytes × Bytes))) :=
  (entered catching (lines.map lit)).map fun x => x.2.map fun o => o.toOption.map fun r => (r.errors, r.returnValue.getD r.output)

/-- The window and the numbers at the end. -/
abbrev left (lines : List String) : Res PropWorld := (entered true (lines.map lit)).map fun x => x.1.user

abbrev said (t : String) : Option (List Bytes × Bytes) := some ([], lit t)

abbrev wrong (ts : List String) : Option (List Bytes × Bytes) := some (ts.map lit, [])

end Prop124

open Prop124

/-- **C124**, a witness: a negative aspect; and a diagonal after the diagonal 0. -/
theorem C124_next_false : left ["window.aspect"] = .ok propStart ∧ left ["window.aspect", "window.aspect -1"] = .ub .castRange ∧
    left ["window.diagonal 0"] = .ok ⟨⟨0, 0⟩, [3, 1, 4]⟩ ∧ left ["window.diagonal 0", "window.diagonal 5"] = .ub .castRange := by
  refine ⟨?_, ?_, ?_, ?_⟩ <;> decide +kernel

/-- Lines of the example (PropertiesExample.cpp 62-78), with the greater side as the diagonal. -/
example : answers true ["window.print_size", "window.aspect", "window.aspect 1.3", "window.print_size", "window.diagonal", "window.diagonal 1500",
      "window.print_size", "data", "data.size", "data.size 7", "data", "window.readonly_aspect", "window.readonly_aspect 1.5",
      "window.readonly_diagonal", "window.readonly_diagonal 1200"] =
    .ok [said "1920x1080\n", said "1.77778", said "1.3", said "1404x1080\n", said "1404", said "1500", said "1500x1153\n", said "{ 3 1 4 }",
      said "3", said "7", said "{ 3 1 4 0 0 0 0 }", said "1.30095", wrong ["This property is read-only"], said "1500",
      wrong ["This property is read-only"]] := by
  decide +kernel

/-- What is left: the last window, and the numbers that were never cut off. -/
example : left ["window.aspect 1.3", "data.size 7"] = .ok ⟨⟨1404, 1080⟩, [3, 1, 4, 0, 0, 0, 0]⟩ ∧
    left ["data.size 1", "data.size 3", "data.size 9"] = .ok ⟨⟨1920, 1080⟩, [3, 0, 0]⟩ := by
  refine ⟨?_, ?_⟩ <;> decide +kernel

/-- Numbers that were cut off do not come back; a size that cannot be had changes nothing; a value that is not a number is an error, for read-only
properties too. -/
example : answers true ["data.size 1", "data.size 3", "data", "data.size 9", "data.size -1", "data.size", "window.aspect wide",
      "window.readonly_aspect wide", "data 1"] =
    .ok [said "1", said "3", said "{ 3 0 0 }", wrong ["Exception caught during execution: vector::_M_default_append"],
      wrong ["Unable to convert '-1' to type 'unsigned long'"], said "3", wrong ["Unable to convert 'wide' to type 'float'"],
      wrong ["Unable to convert 'wide' to type 'float'"], wrong ["Wrong number of arguments to 'data': expected 0, got 1"]] := by
  decide +kernel

end Coil
