import Verif.Proofs.Arith
import Verif.Proofs.OneForm
import Verif.Props.Access
import Verif.Props.Conv
import Verif.Props.Lexer

/-!
# Commands that compute with integers (C98)
-/

namespace Coil
open Spec

namespace Demo

def arithUnit : FunctorDef Int Nat Nat := ⟨[], Unit, lit "void", none, fun _ => .ret ()⟩

/-- `sum` and `scaler2.scale`; the program state is the multiplier. -/
def PA : Nat → FunctorDef Int Nat Nat
  | 0 => sumDef pl
  | 1 => scaleDef pl id
  | _ => arithUnit

def startA : Res (Sys Reg Int Nat Nat) := do
  let m ← UMap.create (djb2 true) 1
  let s ← bindingsAdd ops ⟨m, some (lexRead (LexCfg.default true)), 10, [], 0, [], []⟩ (lit "sum") [(0, 0)]
  bindingsAdd ops s (lit "scaler2.scale") [(1, 0)]

def execA (lines : List String) : Res (List (Option (Answer × Bytes)) × Int) := do
  let s ← startA
  let (s', os) ← executeAll PA ops true 3 s (lines.map fun t => .line (lit t))
  .ok (os.map answer, s'.user)

end Demo

variable {S W C D : Type} {P : C → FunctorDef W C D} {ops : RegOps S C D} {catching : Bool} {fuel depth : Nat}
  {s : Sys S W C D} {req : Request} {name : Bytes} {f : Inst C D} {pl : Platform} {v : Value} {named : List Named}

theorem reads_int_converts {v : Value} {x : Int} (h : Reads pl (.int .int) v x) : (intConv pl .int).fromString v = .ok (.ok x) :=
  reads_converts pl (.int .int) trivial v x h

theorem reads_ints_convert {v : Value} {xs : List Int} (h : Forall2 (fun p x => Reads pl (.int .int) ⟨[p]⟩ x) v.subvalues xs) :
    (dynConv (intConv pl .int)).fromString v = .ok (.ok xs) := by
  show dynLoop _ _ v v.subvalues [] = _
  rw [dynLoop_eq]
  refine (vecLoop_ok_iff (c := intConv pl .int) rfl).2 ⟨xs, rfl, ?_⟩
  generalize v.subvalues = l at h
  induction h with
  | nil => exact .nil
  | cons h _ ih => exact .cons (reads_int_converts h) ih

/-! ## C98 -/

/-- **C98.** `scale x` answers the product of `x` and the member of the object if it is a value of `int`. If it is not, the behaviour is
undefined. Nothing but the record of calls changes. -/
theorem C98_scale_partial {multiplier : W → Int} (h : OneForm P ops s name (scaleDef pl multiplier) f)
    (hm : Means s.lexer req ⟨name, [v], named⟩) {x : Int} (hx : Reads pl (.int .int) v x) :
    (InRange pl .int (x * multiplier s.user) →
      ∃ out, (nested P ops catching (fuel + 1) depth).exec s req = .ok ({ s with calls := s.calls ++ [(depth, f.id)] }, out) ∧
        answerOf out = some ⟨[], some (intDec (x * multiplier s.user))⟩) ∧
    (¬ InRange pl .int (x * multiplier s.user) → (nested P ops catching (fuel + 1) depth).exec s req = .ub .intOverflow) := by
  have hc : ConvertTo (scaleDef (W := W) (C := C) (D := D) pl multiplier).params [v] (x, ()) := ⟨reads_int_converts hx, trivial⟩
  constructor
  · intro hr
    have hmul : intMul x (multiplier s.user) = .ok (x * multiplier s.user) := if_pos (int_inRange.1 hr)
    refine ⟨_, h.returns hm hc (es := []) (e := .ret (x * multiplier s.user)) (.get ?_), rfl⟩
    simp only [hmul, Prog.ofRes]
    exact .ret
  · intro hr
    have hmul : intMul x (multiplier s.user) = .ub .intOverflow := if_neg fun h => hr (int_inRange.2 h)
    refine h.undefined hm hc ?_
    simp only [scaleDef, Prog.run, hmul, Prog.ofRes]

/-- **C98.** `sum` of numbers answers their sum if each sum of an initial part is a value of `int`. If one is not, the behaviour is
undefined. -/
theorem C98_sum_partial (h : OneForm P ops s name (sumDef pl) f) (hm : Means s.lexer req ⟨name, [v], named⟩)
    {xs : List Int} (hx : Forall2 (fun p x => Reads pl (.int .int) ⟨[p]⟩ x) v.subvalues xs) :
    ((∀ k, InRange pl .int (xs.take k).sum) →
      ∃ out, (nested P ops catching (fuel + 1) depth).exec s req = .ok ({ s with calls := s.calls ++ [(depth, f.id)] }, out) ∧
        answerOf out = some ⟨[], some (intDec xs.sum)⟩) ∧
    (¬ (∀ k, InRange pl .int (xs.take k).sum) → (nested P ops catching (fuel + 1) depth).exec s req = .ub .intOverflow) := by
  have hc : ConvertTo (sumDef (W := W) (C := C) (D := D) pl).params [v] (xs, ()) := ⟨reads_ints_convert hx, trivial⟩
  obtain ⟨a1, a2⟩ := accumulate_spec pl xs 0
  simp only [Int.zero_add] at a1 a2
  constructor
  · intro hr
    refine ⟨_, h.returns hm hc (es := []) (e := .ret xs.sum) ?_, rfl⟩
    simp only [sumDef, a1 fun k _ _ => hr k, Prog.ofRes]
    exact .ret
  · intro hr
    refine h.undefined hm hc ?_
    have : accumulate xs 0 = .ub .intOverflow := by
      refine a2 ?_
      simp only [Classical.not_forall] at hr
      obtain ⟨k, hk⟩ := hr
      rcases Nat.eq_zero_or_pos k with rfl | h0
      · exact absurd (int_inRange.2 (by simp)) hk
      · rcases Nat.lt_or_ge xs.length k with hl | hl
        · rw [List.take_of_length_le (by omega)] at hk
          refine ⟨xs.length, ?_, Nat.le_refl _, by rwa [List.take_length]⟩
          rcases Nat.eq_zero_or_pos xs.length with h | h
          · have := List.eq_nil_of_length_eq_zero h
            subst this
            exact absurd (int_inRange.2 (by simp)) hk
          · exact h
        · exact ⟨k, h0, hl, hk⟩
    simp only [sumDef, this, Prog.ofRes, Prog.run]

/-- **C98.** For numbers of one sign only the sum itself matters: so their order does not. -/
theorem C98_same_sign {xs : List Int} (hs : (∀ x ∈ xs, 0 ≤ x) ∨ (∀ x ∈ xs, x ≤ 0)) :
    (∀ k, InRange pl .int (xs.take k).sum) ↔ InRange pl .int xs.sum := by
  constructor
  · intro h
    have := h xs.length
    rwa [List.take_length] at this
  · intro h k
    rw [int_inRange] at h ⊢
    rcases hs with hs | hs
    · have := sum_take_nonneg k hs
      omega
    · have := sum_take_nonpos k hs
      omega

/-- **C98.** A part that is not a number is reported, and nothing is added up. -/
theorem C98_reject (h : OneForm P ops s name (sumDef pl) f) (hm : Means s.lexer req ⟨name, [v], named⟩)
    {pre post : List Bytes} {p e : Bytes} {xs : List Int} (hv : v.subvalues = pre ++ p :: post)
    (hx : Forall2 (fun p x => Reads pl (.int .int) ⟨[p]⟩ x) pre xs)
    (he : (intConv pl .int).fromString ⟨[p]⟩ = .ok (.error e)) :
    ∃ out, (nested P ops catching (fuel + 1) depth).exec s req = .ok (s, out) ∧
      answerOf out = some ⟨[genericError (lit "DynamicArray<" ++ (intConv pl .int).name ++ lit ">") v e], none⟩ := by
  have hc : (dynConv (intConv pl .int)).fromString v =
      .ok (.error (genericError (lit "DynamicArray<" ++ (intConv pl .int).name ++ lit ">") v e)) := by
    show dynLoop _ _ v v.subvalues [] = _
    rw [dynLoop_eq]
    refine (vecLoop_error_iff (c := intConv pl .int) rfl).2 ⟨pre, p, post, xs, e, hv, ?_, he, rfl⟩
    clear hv hm he
    induction hx with
    | nil => exact .nil
    | cons h _ ih => exact .cons (reads_int_converts h) ih
  have hce : conversionErrors (sumDef (W := W) (C := C) (D := D) pl).params [v] =
      [genericError (lit "DynamicArray<" ++ (intConv pl .int).name ++ lit ">") v e] := by
    simp [sumDef, conversionErrors, hc]
  refine ⟨_, h.rejected hm ⟨⟨_, hc⟩, trivial⟩ (by rw [hce]; simp), ?_⟩
  rw [hce]
  rfl

/-- **C98, negation.** Numbers that are accepted can make the answer undefined: even where the sum is a value of `int`, in one order but not
in another. -/
theorem C98_false :
    Demo.execA ["sum 2147483647,1"] = .ub .intOverflow ∧
    Demo.execA ["sum (2147483647 1 -1)"] = .ub .intOverflow ∧
    Demo.execA ["sum (2147483647 -1 1)"] = .ok ([some (⟨[], some (lit "2147483647")⟩, [])], 10) ∧
    Demo.execA ["scaler2.scale 214748365"] = .ub .intOverflow := by
  refine ⟨?_, ?_, ?_, ?_⟩ <;> decide +kernel

example : Demo.execA ["sum 1", "sum 1,2,3", "sum (1 2 3 4 5)", "sum (one two)", "sum ()", "scaler2.scale 10", "scaler2.scale -214748364"] =
    .ok ([some (⟨[], some (lit "1")⟩, []), some (⟨[], some (lit "6")⟩, []), some (⟨[], some (lit "15")⟩, []),
      some (⟨[lit "Unable to convert 'one two' to type 'DynamicArray<int>': Unable to convert 'one' to type 'int'"], none⟩, []),
      some (⟨[], some (lit "0")⟩, []), some (⟨[], some (lit "100")⟩, []), some (⟨[], some (lit "-2147483640")⟩, [])], 10) := by
  decide +kernel

/-- The hypotheses of `C98_sum_partial` hold for the commands of the example. -/
example : ∃ s f, Demo.startA = .ok s ∧ OneForm Demo.PA Demo.ops s (lit "sum") (sumDef Demo.pl) f ∧
    Means s.lexer (.line (lit "sum 7,-2")) ⟨lit "sum", [⟨[lit "7", lit "-2"]⟩], []⟩ := by
  refine ⟨_, ⟨0, 0, 0⟩, rfl, ⟨by decide, ?_, rfl, by simp [idsOf]⟩, ⟨_, rfl, ?_⟩⟩
  · have : (match Demo.startA with
      | .ok s => Demo.ops.find s.reg (lit "sum")
      | _ => .diverge) = .ok (some ⟨lit "sum", [⟨0, 0, 0⟩]⟩) := by decide +kernel
    exact this
  · have : (match lexRead (LexCfg.default true) (lit "sum 7,-2") with
      | .ok (.ok i) => decide (i = ⟨lit "sum", [⟨[lit "7", lit "-2"]⟩], []⟩)
      | _ => false) = true := by decide +kernel
    revert this
    cases lexRead (LexCfg.default true) (lit "sum 7,-2") with
    | ok r => cases r with
      | ok i => intro h; simp at h; rw [h]
      | error e => simp
    | ub w => simp
    | diverge => simp

end Coil
